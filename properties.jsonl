{"id": "C01", "title": "Variable-length integers survive a write/read round trip", "statement": "For every integer below 2^62, writing it as a variable-length integer succeeds exactly when the buffer has room for its minimal encoding (1, 2, 4 or 8 bytes), advances the writer by exactly that length, and reading from the written bytes, whatever bytes follow them, yields the same integer and consumes exactly those bytes. Writing with any explicitly chosen legal length that can hold the value also reads back to the same value.", "quantifier": "all integers < 2^62, all buffer capacities, all trailing bytes, all explicit lengths", "why_tests_cant": "there are 2^62 values times every trailing suffix; boundary values of the four length classes are easy to sample but an error in an interior bit or an interaction with trailing bytes is not", "anchors": ["octets/src/lib.rs: OctetsMut::put_varint, OctetsMut::put_varint_with_len, Octets::get_varint, varint_len, varint_parse_len"]}
{"id": "C02", "title": "Variable-length integer parsing is total and self-delimiting", "statement": "Reading a variable-length integer from any byte string either fails with a too-short error and leaves the read position untouched, or consumes exactly the number of bytes announced by the two top bits of the first byte and returns a value below 2^62. It fails only if the string is shorter than announced.", "quantifier": "all byte strings and read positions", "why_tests_cant": "universal statement over arbitrary attacker-chosen bytes", "anchors": ["octets/src/lib.rs: Octets::get_varint, varint_parse_len"]}
{"id": "C03", "title": "Huffman coding of header strings is lossless", "statement": "For every byte string, if the Huffman encoder reports an encoded length and writes the string, then the number of bytes written is the reported length and decoding those bytes returns the original string (ASCII-lowercased when lower-casing was requested).", "quantifier": "all byte strings, both lower-casing modes", "why_tests_cant": "strings are unbounded; code lengths of neighbouring symbols interact at byte boundaries", "anchors": ["octets/src/lib.rs: OctetsMut::put_huffman_encoded, Octets::get_huffman_decoded, huffman_encoding_len", "octets/src/huffman_table.rs: ENCODE_TABLE, DECODE_TABLE"]}
{"id": "C04", "title": "Huffman decoding with a size limit never exceeds it", "statement": "Decoding any byte string with a maximum length either fails or returns a string no longer than that maximum, and whenever it succeeds it returns the same string as the unlimited decoder.", "quantifier": "all byte strings, all limits", "why_tests_cant": "adversarial inputs; the limit must hold for each of them", "anchors": ["octets/src/lib.rs: Octets::get_huffman_decoded_with_max_length"]}
{"id": "C05", "title": "A packet-number range set represents exactly the union of what was inserted", "statement": "After any sequence of range insertions (without hitting the capacity limit) the set contains a number if and only if some inserted range contained it, regardless of insertion order, overlap, adjacency, and of the switch between the small inline representation and the tree representation.", "quantifier": "all finite sequences of ranges, all numbers", "why_tests_cant": "order/overlap patterns are unbounded; two internal representations must agree", "anchors": ["quiche/src/ranges.rs: RangeSet::insert, InlineRangeSet::insert, BTreeRangeSet::insert, RangeSet::fixup, RangeSet::flatten"]}
{"id": "C06", "title": "Range sets stay normalised", "statement": "At every moment the ranges reported by a range set are in increasing order, pairwise disjoint and separated by at least one missing number, so each iteration direction yields every number once and first/last report the extreme ranges.", "quantifier": "all sequences of insertions and removals", "why_tests_cant": "invariant over unbounded histories", "anchors": ["quiche/src/ranges.rs: RangeSet::insert, RangeSet::remove_until, RangeSet::iter, RangeSet::first, RangeSet::last"]}
{"id": "C07", "title": "Range set capacity bounds memory and only ever forgets", "statement": "With a capacity limit, the number of ranges stored never exceeds the capacity (minimum one), and every number reported as contained was inserted earlier (forgetting is allowed, inventing is not); when the limit does force forgetting it is the smallest stored range that is dropped.", "quantifier": "all capacities, all insertion histories", "why_tests_cant": "adversarial peers choose the packet number pattern; bound must hold for all", "anchors": ["quiche/src/ranges.rs: RangeSet::new, InlineRangeSet::insert, BTreeRangeSet::insert"]}
{"id": "C08", "title": "Removing acknowledged prefixes is exact", "statement": "Removing everything up to and including a number from a range set leaves exactly the numbers that were present and are larger.", "quantifier": "all range sets and numbers", "why_tests_cant": "universal over histories and cut points including cuts in the middle of a range and in gaps", "anchors": ["quiche/src/ranges.rs: RangeSet::remove_until, InlineRangeSet::remove_until, BTreeRangeSet::remove_until"]}
{"id": "C09", "title": "Stream data is delivered in order, without loss, duplication or corruption", "statement": "If every STREAM frame received for a stream carries bytes agreeing with one fixed byte sequence (the peer's stream), then however those frames are split, reordered, duplicated or overlapped, the concatenation of everything the application reads is always a prefix of that sequence.", "quantifier": "all byte sequences, all frame arrival schedules, all interleavings with reads of arbitrary sizes", "why_tests_cant": "the schedule space is unbounded; overlap handling in the reassembly buffer has many cases", "anchors": ["quiche/src/stream/recv_buf.rs: RecvBuf::write, RecvBuf::emit_or_discard", "quiche/src/range_buf.rs: RangeBuf", "quiche/src/lib.rs: Connection::stream_recv"]}
{"id": "C10", "title": "Reassembly makes progress: available data is readable", "statement": "If the frames received so far cover every offset from the current read position up to some offset n, then the application can read all of those bytes up to n without any further packet arriving.", "quantifier": "all arrival schedules and read schedules", "why_tests_cant": "liveness-style claim over all schedules; tests only cover hand-picked overlaps", "anchors": ["quiche/src/stream/recv_buf.rs: RecvBuf::write, RecvBuf::emit_or_discard, RecvBuf::ready"]}
{"id": "C11", "title": "The final size of a stream is immutable", "statement": "Once the final size of a receiving stream is known (by FIN or RESET_STREAM) every later frame that would extend past it or state a different final size is refused with a final size error (or, for a STREAM frame that also exceeds the stream's flow-control limit, with a flow control error), a FIN below data already received is refused, a refused STREAM frame changes nothing, and the recorded final size never changes.", "quantifier": "all frame histories", "why_tests_cant": "requires considering all interleavings of FIN, RESET and data frames, including overlap trimming", "anchors": ["quiche/src/stream/recv_buf.rs: RecvBuf::write, RecvBuf::reset"]}
{"id": "C12", "title": "A receiving stream enforces its flow-control limit", "statement": "Data ending beyond the limit advertised for the stream is rejected with a flow control error, and no state ever records received data beyond the advertised limit; the advertised limit never decreases.", "quantifier": "all frame histories and window updates", "why_tests_cant": "attacker-controlled offsets; invariant over unbounded histories", "anchors": ["quiche/src/stream/recv_buf.rs: RecvBuf::write, RecvBuf::update_max_data, RecvBuf::max_data_next", "quiche/src/flowcontrol.rs: FlowControl"]}
{"id": "C13", "title": "End of stream is reported exactly when everything was read", "statement": "A read reports the end of the stream (fin) if and only if the final size is known and the application has now consumed exactly that many bytes.", "quantifier": "all frame and read histories", "why_tests_cant": "must hold for every interleaving, including zero-length FIN frames and discards", "anchors": ["quiche/src/stream/recv_buf.rs: RecvBuf::emit_or_discard, RecvBuf::is_fin"]}
{"id": "C14", "title": "A stream reset by the peer is reported to the application", "statement": "After the peer resets a stream that the application is still reading, the stream becomes readable and the next read reports the reset error code.", "quantifier": "all receive histories before the reset", "why_tests_cant": "depends on the history before the reset (whether the final size was already known, what was buffered)", "anchors": ["quiche/src/stream/recv_buf.rs: RecvBuf::reset, RecvBuf::emit_or_discard, RecvBuf::ready"]}
{"id": "C15", "title": "Resetting or abandoning a stream returns exactly the unconsumed connection credit", "statement": "When a receiving stream is reset by the peer or shut down for reading, the connection-level credit handed back plus the bytes the application had read equals the number of bytes charged to the connection for that stream, so no credit is leaked or minted.", "quantifier": "all receive histories", "why_tests_cant": "accounting identity over unbounded histories; leaks only show after long runs", "anchors": ["quiche/src/stream/recv_buf.rs: RecvBuf::reset, RecvBuf::shutdown", "quiche/src/lib.rs: Connection::process_frame, Connection::stream_shutdown"]}
{"id": "C16", "title": "Everything sent on a stream is what the application wrote", "statement": "Every chunk a sending stream emits, first time or as a retransmission, carries at offset o exactly the byte the application wrote at offset o; a FIN is attached exactly to chunks ending at the final size, and no chunk reaches past it.", "quantifier": "all interleavings of writes, emissions of arbitrary sizes, acknowledgements and loss reports", "why_tests_cant": "unbounded interleavings; retransmission splits and merges internal chunks", "anchors": ["quiche/src/stream/send_buf.rs: SendBuf::write, SendBuf::emit, SendBuf::retransmit, SendBuf::ack_and_drop", "quiche/src/range_buf.rs: RangeBuf::split_off"]}
{"id": "C17", "title": "A sending stream never exceeds the peer's stream limit", "statement": "No byte at or beyond the stream limit granted by the peer is ever accepted for sending or emitted, and the limit used never decreases.", "quantifier": "all write/emit/update histories", "why_tests_cant": "invariant over unbounded histories", "anchors": ["quiche/src/stream/send_buf.rs: SendBuf::cap, SendBuf::write, SendBuf::emit, SendBuf::update_max_data"]}
{"id": "C18", "title": "Lost stream data is sent again", "statement": "If a range of previously sent, not yet acknowledged bytes is reported lost and the stream was not reset, the stream becomes flushable again and repeatedly emitting produces every unacknowledged byte of that range.", "quantifier": "all histories and lost ranges", "why_tests_cant": "liveness over all interleavings of loss, acknowledgement and partial emission", "anchors": ["quiche/src/stream/send_buf.rs: SendBuf::retransmit, SendBuf::emit, SendBuf::ready"]}
{"id": "C19", "title": "A sending stream is complete exactly when everything was acknowledged", "statement": "A sending stream reports completion if and only if it was abandoned (shut down or stopped by the peer), or the final size is known and every byte below it has been acknowledged (for a stream without data: an empty frame has been acknowledged).", "quantifier": "all acknowledgement orders", "why_tests_cant": "acknowledgement orders and overlaps are unbounded", "anchors": ["quiche/src/stream/send_buf.rs: SendBuf::ack, SendBuf::is_complete"]}
{"id": "C20", "title": "Receive windows are never retracted and stay within configured maxima", "statement": "For a connection- or stream-level receive flow controller, the advertised limit never decreases, auto-tuning never makes the window exceed the configured maximum window, and after an update at least a full window of credit beyond the consumed bytes is advertised.", "quantifier": "all sequences of consumption, autotune and update steps, all configurations", "why_tests_cant": "state depends on timing and consumption history", "anchors": ["quiche/src/flowcontrol.rs: FlowControl::new, FlowControl::should_update_max_data, FlowControl::update_max_data, FlowControl::autotune_window, FlowControl::ensure_window_lower_bound"]}
{"id": "C21", "title": "Connection-level send flow control is respected", "statement": "At all times the total amount of stream data accepted for sending (sum over streams of the highest offset accepted) is at most the connection limit granted by the peer.", "quantifier": "all sequences of application writes, MAX_DATA frames, stream resets, STOP_SENDING and congestion window changes; all send capacity factors", "why_tests_cant": "accounting invariant over histories; clawed-back credit after reset must not overcount", "anchors": ["quiche/src/lib.rs: Connection::stream_do_send, Connection::update_tx_cap, Connection::process_frame, Connection::stream_shutdown"]}
{"id": "C22", "title": "Connection-level receive flow control is enforced", "statement": "The sum over all streams of the highest received offset never exceeds the advertised connection limit: a STREAM or RESET_STREAM frame that would exceed it is answered with a flow control error.", "quantifier": "all frame sequences across arbitrarily many streams", "why_tests_cant": "adversarial frame sequences over unboundedly many streams", "anchors": ["quiche/src/lib.rs: Connection::process_frame, Connection::max_rx_data"]}
{"id": "C23", "title": "Connection receive credit is conserved", "statement": "At every point the bytes reported to the connection flow controller as consumed never exceed the bytes charged to it, and once every stream has been fully read, reset or abandoned with its final size reached the two are equal.", "quantifier": "all frame, read, discard and shutdown histories over arbitrarily many streams", "why_tests_cant": "a leak of a few bytes per reset stream eventually deadlocks the connection; not visible in short tests", "anchors": ["quiche/src/lib.rs: Connection::process_frame, Connection::do_stream_recv, Connection::stream_shutdown", "quiche/src/stream/recv_buf.rs: RecvBuf"]}
{"id": "C24", "title": "Stream count limits are enforced in both directions", "statement": "An endpoint never creates a peer-initiated stream whose ordinal exceeds the limit it advertised, and never lets the application open a local stream whose ordinal exceeds the limit granted by the peer; violations yield a stream limit error, and streams with the wrong initiator are refused.", "quantifier": "all histories of stream creation, limit updates and collection, all stream IDs", "why_tests_cant": "stream IDs and histories unbounded, four stream classes", "anchors": ["quiche/src/stream/mod.rs: StreamMap::get_or_create, StreamMap::update_peer_max_streams_bidi, StreamMap::update_max_streams_bidi"]}
{"id": "C25", "title": "A finished stream never comes back to life", "statement": "Once a stream has been completed and collected, no later frame or call re-creates it or makes it readable, writable or flushable.", "quantifier": "all histories", "why_tests_cant": "temporal property over unbounded histories", "anchors": ["quiche/src/stream/mod.rs: StreamMap::collect, StreamMap::get_or_create, StreamMap::is_collected"]}
{"id": "C26", "title": "Every completed peer stream gives back exactly one stream credit", "statement": "The limit on peer-initiated streams that will next be advertised equals the initial limit plus the number of completed peer-initiated streams of that kind, advertised limits never decrease, and the credit is advertised in the next packet with room as soon as the peer has at most half of the initial allowance left.", "quantifier": "all histories", "why_tests_cant": "off-by-one or double credit only visible in aggregate", "anchors": ["quiche/src/stream/mod.rs: StreamMap::collect, StreamMap::max_streams_bidi_next, StreamMap::update_max_streams_bidi, StreamMap::should_update_max_streams_bidi"]}
{"id": "C27", "title": "Stream scheduling honours urgency", "statement": "Among streams queued for sending or reading, a stream with a numerically lower urgency is always served before one with a higher urgency; at equal urgency non-incremental streams are served before incremental ones and in stream-ID order.", "quantifier": "all sets of queued streams and insertion orders", "why_tests_cant": "the ordering function is not a total order (incremental streams compare as always-greater), so the tree behaviour must be reasoned about for every insertion order", "anchors": ["quiche/src/stream/mod.rs: StreamPriorityKey::cmp, StreamMap::insert_flushable, StreamMap::peek_flushable"]}
{"id": "C28", "title": "Incremental streams share bandwidth round-robin", "statement": "If a STREAM frame is sent for an incremental stream and later another one for the same stream, then every other stream that was queued with the same urgency all the time in between has been sent a STREAM frame in between (unless it is stopped or its frame header does not fit the packet).", "quantifier": "all connection histories before, between and around the two services", "why_tests_cant": "fairness property over unbounded schedules", "anchors": ["quiche/src/stream/mod.rs: StreamPriorityKey::cmp", "quiche/src/lib.rs: Connection::send_single"]}
{"id": "C29", "title": "QUIC frames survive an encode/decode round trip", "statement": "Every frame whose fields are in their protocol range and whose CRYPTO, STREAM or DATAGRAM data is shorter than 2^14 bytes is written whenever the buffer has room for it, changing no other byte of the buffer; decoding what was written, followed by arbitrary further bytes, in any packet type that permits the frame yields the same frame and consumes exactly the bytes written. PADDING is delimited by the first non-zero byte, so it also takes in zero bytes that follow. (Data of 2^14 bytes and more is beyond the two-byte length field: it is written without an error but read back shortened.)", "quantifier": "all frames of all types, all field values, all buffers and cursor positions, all trailing bytes", "why_tests_cant": "fields range over 2^62 values and unbounded payloads", "anchors": ["quiche/src/frame.rs: Frame::to_bytes, Frame::from_bytes"]}
{"id": "C30", "title": "Announced frame sizes are exact", "statement": "The wire length reported for a frame equals the number of bytes encoding it produces, so the packet builder's space accounting never over- or underestimates.", "quantifier": "all frames", "why_tests_cant": "universal over field values and range sets", "anchors": ["quiche/src/frame.rs: Frame::wire_len, Frame::to_bytes"]}
{"id": "C31", "title": "Frames are only accepted in packet types that permit them", "statement": "A frame is decoded from an Initial or Handshake packet only if it is PADDING, PING, ACK, CRYPTO or transport CONNECTION_CLOSE; from a 0-RTT packet never if it is ACK, CRYPTO, HANDSHAKE_DONE, NEW_TOKEN, PATH_RESPONSE, RETIRE_CONNECTION_ID or transport CONNECTION_CLOSE.", "quantifier": "all byte strings, all packet types", "why_tests_cant": "security relevant for arbitrary input bytes, including non-minimal frame type encodings", "anchors": ["quiche/src/frame.rs: Frame::from_bytes"]}
{"id": "C32", "title": "ACK frames denote exactly the acknowledged packet numbers", "statement": "Encoding a non-empty normalised set of packet numbers as an ACK frame and decoding it yields the same set; decoding arbitrary bytes never yields packet numbers below zero or a set larger than described: any range that would underflow is rejected.", "quantifier": "all normalised packet-number sets; all byte strings", "why_tests_cant": "gap/length arithmetic off-by-ones over unbounded range lists", "anchors": ["quiche/src/frame.rs: parse_ack_frame, Frame::to_bytes", "quiche/src/ranges.rs: RangeSet"]}
{"id": "C33", "title": "Packet headers survive an encode/decode round trip", "statement": "For every long or short header with in-range fields, parsing the serialized header returns the same packet type, version, connection IDs and token; connection IDs longer than 20 bytes are rejected for known versions.", "quantifier": "all header field values, all trailing bytes", "why_tests_cant": "unbounded field values", "anchors": ["quiche/src/packet.rs: Header::to_bytes, Header::from_bytes"]}
{"id": "C34", "title": "Truncated packet numbers are recovered", "statement": "If a packet number is truncated to the length the sender chose relative to its largest acknowledged packet number, then any receiver whose largest received packet number lies at or above that and close enough to the packet number (less than half the coding window) reconstructs the full packet number.", "quantifier": "all packet numbers, all acknowledgement states, all lengths", "why_tests_cant": "64-bit space; window boundary conditions", "anchors": ["quiche/src/packet.rs: pkt_num_len, encode_pkt_num, decode_pkt_num"]}
{"id": "C35", "title": "No packet number is ever processed twice", "statement": "Over all sequences of packets arriving on a connection, a packet number (as recovered by the receiver) is processed at most once, and a number that was not seen before is never rejected unless it lies below the sliding window.", "quantifier": "all arrival sequences of packet numbers", "why_tests_cant": "unbounded arrival sequences; shifts of the bit window have boundary cases", "anchors": ["quiche/src/packet.rs: PktNumWindow::insert, PktNumWindow::contains, decode_pkt_num", "quiche/src/lib.rs: recv_single"]}
{"id": "C36", "title": "Header protection is undone exactly by the receiver", "statement": "Removing header protection from a protected header restores the original first byte and packet-number bytes, for every mask produced by the cipher, for long and short headers and every packet number length.", "quantifier": "all headers, masks and packet number lengths", "why_tests_cant": "universal over masks", "anchors": ["quiche/src/packet.rs: encrypt_hdr, decrypt_hdr"]}
{"id": "C37", "title": "Transport parameters survive a round trip and malformed ones are rejected", "statement": "Encoding transport parameters whose values are in protocol range and decoding them on the other side yields the same values (server-only parameters only being sent by servers); duplicates and out-of-range values are rejected, and server-only parameters sent by a client are rejected.", "quantifier": "all parameter values; all byte strings", "why_tests_cant": "many optional fields times value ranges", "anchors": ["quiche/src/transport_params.rs: TransportParams::encode, TransportParams::decode"]}
{"id": "C38", "title": "Connection ID limits are respected", "statement": "An endpoint never has more than the peer's active_connection_id_limit source connection IDs outstanding beyond those being retired, and never stores more destination connection IDs than the limit it advertised; surplus ones are rejected with an ID limit error.", "quantifier": "all histories of NEW_CONNECTION_ID / RETIRE_CONNECTION_ID frames and application calls", "why_tests_cant": "history-dependent bookkeeping", "anchors": ["quiche/src/cid.rs: ConnectionIdentifiers::new_scid, ConnectionIdentifiers::new_dcid, ConnectionIdentifiers::retire_scid, ConnectionIdentifiers::retire_dcid, BoundedNonEmptyConnectionIdVecDeque::insert"]}
{"id": "C39", "title": "Advertised connection IDs are well-formed", "statement": "Every NEW_CONNECTION_ID frame an endpoint sends has retire_prior_to not greater than its sequence number.", "quantifier": "all histories of application calls issuing new connection IDs", "why_tests_cant": "depends on failed intermediate calls", "anchors": ["quiche/src/cid.rs: ConnectionIdentifiers::new_scid, ConnectionIdentifiers::get_new_connection_id_frame_for"]}
{"id": "C40", "title": "NEW_CONNECTION_ID handling is idempotent and consistent", "statement": "Receiving the same NEW_CONNECTION_ID frame again changes nothing; receiving one that reuses a sequence number or a connection ID inconsistently is an error; sequence numbers below the peer's retirement threshold are retired immediately and exactly once announced.", "quantifier": "all frame histories", "why_tests_cant": "adversarial frame sequences", "anchors": ["quiche/src/cid.rs: ConnectionIdentifiers::new_dcid"]}
{"id": "C41", "title": "A path is considered validated only after a matching response", "statement": "A path reaches the validated state only after receiving a PATH_RESPONSE whose data equals an outstanding challenge sent on that path, with a challenge datagram of at least 1200 bytes; unsolicited or duplicated responses never validate anything.", "quantifier": "all event histories on a path", "why_tests_cant": "security property over adversarial histories", "anchors": ["quiche/src/path.rs: Path::on_response_received, Path::on_challenge_sent, Path::has_pending_challenge, PathMap::on_response_received"]}
{"id": "C42", "title": "Anti-amplification limit", "statement": "Until the peer's address is validated, a server never sends more bytes on a path than the amplification factor times the bytes received on it.", "quantifier": "all receive/send histories, all amplification factors and datagram sizes", "why_tests_cant": "security property over adversarial histories", "anchors": ["quiche/src/lib.rs: Connection::recv, Connection::send_on_path", "quiche/src/path.rs: Path::max_send_bytes"]}
{"id": "C43", "title": "Path MTU discovery finds a working size", "statement": "Against a network that delivers exactly the probes up to some true size t (1200 <= t <= maximum), path MTU discovery terminates and settles on t; at every moment the size in use lies between 1200 and the maximum, and probing never exceeds the maximum.", "quantifier": "all true path MTUs and maxima, all loss patterns for the safety part", "why_tests_cant": "binary search with retry counters: off-by-ones at particular sizes", "anchors": ["quiche/src/pmtud.rs: Pmtud"]}
{"id": "C44", "title": "Datagram queues are bounded FIFO with exact byte accounting", "statement": "A datagram queue never holds more than its configured number of datagrams, datagrams leave in the order they entered, purging removes exactly those matching the predicate, and the reported byte size is the sum of the queued sizes.", "quantifier": "all operation histories", "why_tests_cant": "accounting over unbounded histories", "anchors": ["quiche/src/dgram.rs: DatagramQueue"]}
{"id": "C45", "title": "Windowed minimum/maximum filter is sound", "statement": "The windowed filter's current estimate is always one of the samples, is never worse (larger for minimum, smaller for maximum) than the newest sample, and the three tracked estimates stay ordered by value and age.", "quantifier": "all sample sequences and windows", "why_tests_cant": "unbounded sample sequences with time", "anchors": ["quiche/src/minmax.rs: Minmax::running_min, Minmax::running_max, Minmax::subwin_update"]}
{"id": "C46", "title": "Bytes in flight are accounted exactly", "statement": "The loss-recovery state's bytes-in-flight always equals the sum of sizes of packets sent in-flight and neither acknowledged, declared lost nor discarded, over all packet number spaces.", "quantifier": "all histories of sent packets, ACKs, loss timeouts and key discards", "why_tests_cant": "drift only shows over long histories; saturating subtraction hides it", "anchors": ["quiche/src/recovery/congestion/recovery.rs: LegacyRecovery::on_packet_sent, LegacyRecovery::on_ack_received, LegacyRecovery::detect_lost_packets, LegacyRecovery::on_pkt_num_space_discarded"]}
{"id": "C47", "title": "Each sent packet's fate is decided at most once", "statement": "The frames of each sent packet are reported as acknowledged at most once, and a packet is declared lost at most once and never after being acknowledged; only packets older than the largest acknowledged one by the packet threshold or the time threshold are declared lost.", "quantifier": "all ACK / loss histories", "why_tests_cant": "unbounded histories with duplicated and overlapping ACK ranges", "anchors": ["quiche/src/recovery/congestion/recovery.rs: RecoveryEpoch::detect_and_remove_acked_packets, RecoveryEpoch::detect_lost_packets"]}
{"id": "C48", "title": "The loss detection timer uses the earliest pending loss time", "statement": "When one or more packet number spaces have a pending loss time, the loss timer is set to the earliest of them.", "quantifier": "all combinations of pending loss times over the packet number spaces", "why_tests_cant": "combinations of optional times per space; tests only use one space", "anchors": ["quiche/src/recovery/congestion/recovery.rs: LegacyRecovery::loss_time_and_space, LegacyRecovery::set_loss_detection_timer"]}
{"id": "C49", "title": "The effective idle timeout is the minimum of the two endpoints' values", "statement": "With both sides' idle timeouts set the effective timeout is the smaller one, with one side disabled it is the other's, with both disabled there is none; never smaller than three probe timeouts. It runs from the last packet processed, or from the first ack-eliciting packet sent after that; a connection is timed out exactly if a timeout was handled, while it was not draining, at or after that deadline.", "quantifier": "all parameter values and all sequences of calls", "why_tests_cant": "decision table over unbounded values; the deadline depends on the whole history", "anchors": ["quiche/src/lib.rs: Connection::idle_timeout, Connection::recv_single, Connection::send_single, Connection::on_timeout"]}
{"id": "C50", "title": "HTTP/3 frames survive an encode/decode round trip", "statement": "For every HTTP/3 frame with in-range fields, serializing it yields type, payload length and payload such that parsing the payload with that type and length returns the same frame.", "quantifier": "all HTTP/3 frames", "why_tests_cant": "unbounded payloads and settings lists", "anchors": ["quiche/src/h3/frame.rs: Frame::to_bytes, Frame::from_bytes, parse_settings_frame"]}
{"id": "C51", "title": "QPACK integers survive a round trip and are never misread", "statement": "For every 64-bit integer, prefix size and flag bits, encoding and decoding returns the integer; conversely, whenever decoding succeeds the value returned is the one denoted by the bytes read.", "quantifier": "all u64 values, prefixes 1..8, all byte strings", "why_tests_cant": "2^64 values, adversarial encodings with over-long continuation", "anchors": ["quiche/src/h3/qpack/encoder.rs: encode_int", "quiche/src/h3/qpack/decoder.rs: decode_int"]}
{"id": "C52", "title": "QPACK header blocks survive a round trip", "statement": "For every list of headers that fits the buffer, decoding the encoded block yields the same list in the same order with names ASCII-lowercased, provided the size limit allows it.", "quantifier": "all header lists", "why_tests_cant": "static table, name reference, literal and Huffman paths combine for arbitrary names and values", "anchors": ["quiche/src/h3/qpack/encoder.rs: Encoder::encode, lookup_static", "quiche/src/h3/qpack/decoder.rs: Decoder::decode", "quiche/src/h3/qpack/static_table.rs"]}
{"id": "C53", "title": "QPACK decoding enforces the field section size limit", "statement": "If decoding a header block succeeds with limit m then the sum over headers of name length + value length + 32 is at most m; decoding never panics.", "quantifier": "all byte strings and limits", "why_tests_cant": "adversarial input", "anchors": ["quiche/src/h3/qpack/decoder.rs: Decoder::decode, FieldListSizeTracker"]}
{"id": "C54", "title": "HTTP/3 streams opened by the peer follow the grammar of their kind", "statement": "In every execution, the bytes used of a peer-initiated request stream are frames whose known types form a message (HEADERS first, then DATA, at most one HEADERS after data and nothing after it), and the application has got exactly the header lists and body bytes that these frames denote; on a control stream SETTINGS comes first and exactly once.", "quantifier": "all executions: all arrivals of bytes, ends and resets, all calls of poll and recv_body", "why_tests_cant": "language inclusion over unbounded sequences, every split of the bytes", "anchors": ["quiche/src/h3/stream.rs: Stream::set_frame_type, try_fill_buffer, try_consume_varint, try_consume_frame, try_consume_data", "quiche/src/h3/mod.rs: Connection::poll, process_readable_stream, process_frame", "quiche/src/h3/mod.rs: Connection::recv_body"]}
{"id": "C55", "title": "The end of a stream always becomes visible to the reader", "statement": "Once the final size of a stream is known and all its bytes have arrived, and the application has neither abandoned the stream nor been told about its end, a read with enough room returns the remaining bytes (possibly none) and reports the end of the stream.", "quantifier": "all frame arrival schedules, including duplicates that differ only in FIN, and all read schedules", "why_tests_cant": "depends on the order in which a retransmission carrying FIN and the application's reads interleave", "anchors": ["quiche/src/stream/recv_buf.rs:92-200", "quiche/src/stream/recv_buf.rs:230-291", "quiche/src/stream/recv_buf.rs:413-420"]}
{"id": "C56", "title": "Stream calls do not panic, whatever frames arrived", "statement": "No sequence of received STREAM and RESET_STREAM frames, valid or not, makes a later read, discard or shutdown of the stream panic or underflow.", "quantifier": "all frame histories, including ones ending with a refused frame, followed by any application calls", "why_tests_cant": "requires an application call after a particular refused frame", "anchors": ["quiche/src/stream/recv_buf.rs:295-378", "quiche/src/lib.rs:6219-6257"]}
{"id": "C57", "title": "The reported readable length is what a read returns", "statement": "For every stream and limit n, the readable length reported for at most n bytes equals the number of bytes a read of at most n bytes returns at that moment.", "quantifier": "all receive histories, all limits", "why_tests_cant": "chunk boundaries, gaps and limits combine in unbounded ways", "anchors": ["quiche/src/stream/recv_buf.rs:429-452", "quiche/src/lib.rs:6407-6412"]}
{"id": "C58", "title": "A finished stream completes only once its FIN was acknowledged", "statement": "A sending stream that the application finished and did not abandon is reported complete (and may then be forgotten) only after some frame carrying the FIN flag was sent and acknowledged.", "quantifier": "all histories of writes, emissions, acknowledgements and losses", "why_tests_cant": "needs an acknowledgement to arrive between an empty finishing write and the transmission of the FIN", "anchors": ["quiche/src/stream/send_buf.rs:522-533", "quiche/src/lib.rs:3626-3658"]}
{"id": "C59", "title": "Abandoning a sending stream reports the right final size and ends it", "statement": "When a sending stream is abandoned, the final size reported equals one past the highest offset ever sent and the amount given back to the connection is exactly the rest of what was written; afterwards no STREAM frame is sent for it.", "quantifier": "all histories, abandonment at any point by either side", "why_tests_cant": "any interleaving of partial sends, losses and aborts", "anchors": ["quiche/src/stream/send_buf.rs:421-481", "quiche/src/lib.rs:6259-6309", "quiche/src/lib.rs:5180-5195"]}
{"id": "C60", "title": "Sending streams never panic and count their backlog exactly", "statement": "No sequence of operations on a sending stream panics, and the number of buffered bytes it reports is always the number of bytes waiting to be sent.", "quantifier": "all histories", "why_tests_cant": "unbounded interleavings of partial acknowledgement, loss and emission", "anchors": ["quiche/src/stream/send_buf.rs:97-430"]}
{"id": "C61", "title": "Pending stream data is sent whenever there is room", "statement": "If a stream has data accepted from the application that was never sent (or lost data to send again) and the connection is not being closed, then a packet with enough room for a STREAM frame gets one.", "quantifier": "all connection histories, all amounts of room", "why_tests_cant": "depends on the interleaving of queue membership with packet sizes, losses and limits; stranding needs large stream ids and offsets with a packet size in a narrow band", "anchors": ["quiche/src/lib.rs: Connection::send_single", "quiche/src/stream/mod.rs: StreamMap::insert_flushable, remove_flushable", "quiche/src/stream/send_buf.rs: SendBuf::is_flushable"]}
{"id": "C62", "title": "The end of a finished stream is announced", "statement": "When the application has finished a stream (and not abandoned it), a STREAM frame with FIN at the final offset is sent before the stream is considered complete; FIN is set on exactly the frames that reach the final offset.", "quantifier": "all histories of writes, sent packets, losses and acknowledgements", "why_tests_cant": "needs the finishing empty write between a loss and its retransmission", "anchors": ["quiche/src/stream/send_buf.rs: SendBuf::emit, is_complete, ready", "quiche/src/lib.rs: Connection::stream_send"]}
{"id": "C63", "title": "Stream handling never panics", "statement": "No sequence of frames from the peer, API calls, packets sent, acknowledged or lost makes the stream and flow control code of a connection panic (arithmetic underflow with overflow checks on); the number of bytes buffered for sending always equals the sum over the streams.", "quantifier": "all configurations, all histories of frames and calls", "why_tests_cant": "unbounded histories of all stream-related operations", "anchors": ["quiche/src/lib.rs: Connection::process_frame, stream_send, stream_recv, stream_shutdown, update_tx_cap, process_peer_transport_params", "quiche/src/stream/"]}
{"id": "C64", "title": "Finished peer streams are forgotten and give back credit", "statement": "Once the peer has finished a unidirectional stream, all its data has arrived and the application is done with it (read to the end or shut down for reading), the endpoint forgets the stream and the peer may open another one.", "quantifier": "all histories", "why_tests_cant": "needs the right order of shutdown, final frame and reads; the leak shows only once the stream limit is used up", "anchors": ["quiche/src/lib.rs: Connection::stream_recv, stream_shutdown", "quiche/src/stream/mod.rs: StreamMap::collect, Stream::is_complete"]}
{"id": "C65", "title": "A stream is reported writable when its capacity reaches the watermark", "statement": "stream_writable_next() reports a stream only when its send capacity is at least the requested watermark (or the peer stopped it), and reports one when flow control lifts the capacity to the watermark.", "quantifier": "all histories, all watermarks and limits", "why_tests_cant": "boundary case at exact equality of capacity and watermark", "anchors": ["quiche/src/lib.rs: Connection::stream_writable, stream_writable_next", "quiche/src/stream/mod.rs: Stream::is_writable"]}
{"id": "C66", "title": "The Huffman decoder accepts only canonical encodings", "statement": "If a byte string Huffman-decodes to a string s, then it is byte for byte what the encoder writes for s: wrong padding, over-long padding, truncated codes and the end-of-string code are refused, and no two byte strings decode to the same string.", "quantifier": "all byte strings", "why_tests_cant": "needs all inputs; acceptance of non-canonical input only shows for specific bit patterns", "anchors": ["octets/src/lib.rs: Octets::get_huffman_decoded", "octets/src/huffman_table.rs: DECODE_TABLE"]}
{"id": "C67", "title": "Flow-control limits of single streams are the agreed ones", "statement": "On every stream the data accepted from the application never exceeds the highest limit the peer gave for that stream (the initial limit for the stream's kind and initiator, or MAX_STREAM_DATA), and the data accepted from the peer never exceeds the limit advertised last for that stream; advertised stream limits never decrease; data beyond the advertised limit on an existing stream closes the connection with FLOW_CONTROL_ERROR, and FLOW_CONTROL_ERROR is never the answer to data that is within both the stream's and the connection's advertised limit.", "quantifier": "all configurations, all histories, all streams, all frames", "why_tests_cant": "four kinds of streams times two roles times creation order, with limits changing over time", "anchors": ["quiche/src/stream/mod.rs: StreamMap::get_or_create", "quiche/src/lib.rs: process_frame (MAX_STREAM_DATA, STREAM), send_single (MAX_STREAM_DATA)", "quiche/src/stream/recv_buf.rs: RecvBuf::write, RecvBuf::update_max_data"]}
{"id": "C68", "title": "The frame decoder accepts exactly the QUIC wire format and never panics", "statement": "For arbitrary bytes in a packet payload of any packet type, the frame decoder returns a frame or an error without panicking, never reads outside the buffer and never moves backwards. It returns a frame if and only if the bytes at the cursor spell one in the format of RFC 9000 section 19 (or RFC 9221 for DATAGRAM), integers being in any of the permitted encodings, and the packet type permits it; it consumes exactly those bytes, and always at least one.", "quantifier": "all byte strings, all cursor positions, all packet types", "why_tests_cant": "the decoder faces attacker-chosen bytes of unbounded length; a fuzzer samples them and has no independent account of which inputs are valid", "anchors": ["quiche/src/frame.rs: Frame::from_bytes, parse_ack_frame, parse_stream_frame, parse_datagram_frame", "octets/src/lib.rs: Octets"]}
{"id": "C69", "title": "The packet header parser accepts exactly the wire format and unpacking never panics", "statement": "A datagram is accepted by the header parser if and only if it begins with a header of the wire format (long, short, Version Negotiation, Retry), and it then returns exactly the fields of that header. Parsing a header and removing packet protection never panics, whatever the bytes.", "quantifier": "all byte strings, all connection ID lengths, all keys", "why_tests_cant": "arbitrary hostile input", "anchors": ["quiche/src/packet.rs: Header::from_bytes, decrypt_hdr, decrypt_pkt", "quiche/src/lib.rs: recv_single"]}
{"id": "C70", "title": "What is sealed into a packet is what the peer opens", "statement": "A packet assembled by the sender (header, length, packet number, payload, encryption, header protection) is taken apart by a receiver with matching keys to the same packet type, version, connection IDs, token, key phase, full packet number and payload, and the receiver consumes exactly the bytes of the packet, leaving coalesced packets behind it untouched. (Packets with a length field must be shorter than 2^14 bytes.)", "quantifier": "all headers, packet numbers, payloads, keys with a correct AEAD, trailing bytes", "why_tests_cant": "the alignment of sample, length and packet number depends on all sizes at once", "anchors": ["quiche/src/packet.rs: encrypt_pkt, encrypt_hdr, decrypt_hdr, decrypt_pkt, encode_pkt_num", "quiche/src/lib.rs: send_single, recv_single"]}
{"id": "C71", "title": "Version Negotiation and Retry packets of a server are understood by the client", "statement": "A Version Negotiation packet made by negotiate_version() is parsed by the client with connection IDs exchanged and the server's versions; a Retry packet made by retry() is parsed with the new connection ID and token, its integrity tag verifies, and a client waiting for it starts over with that token and connection ID.", "quantifier": "all connection IDs, tokens, random first bytes, tag functions", "why_tests_cant": "all lengths of connection IDs and tokens", "anchors": ["quiche/src/packet.rs: negotiate_version, retry, verify_retry_integrity", "quiche/src/lib.rs: recv_single"]}
{"id": "C72", "title": "No nonce is used twice with the same keys", "statement": "Over a whole connection, with all packet number spaces, failed sends and skipped numbers, any two packets are sealed with different AEAD nonces.", "quantifier": "all executions, all IVs", "why_tests_cant": "nonce reuse needs particular interleavings; universal over executions", "anchors": ["quiche/src/crypto/mod.rs: make_nonce", "quiche/src/lib.rs: send_single", "quiche/src/packet.rs: PktNumManager"]}
{"id": "C73", "title": "When a client acts on Version Negotiation and Retry packets", "statement": "An endpoint acts on at most one Retry and at most one Version Negotiation packet, and only as a client; on a Retry packet only if its integrity tag matches the connection attempt; on Version Negotiation only if it echoes the connection IDs, does not list the version in use and lists a known one, which is then used. Neither has an effect once a packet of the server was processed.", "quantifier": "all states, all packets, all sequences of arrivals", "why_tests_cant": "universal over packets an attacker may inject", "anchors": ["quiche/src/lib.rs: recv_single"]}
{"id": "C74", "title": "An acknowledgement of a skipped packet number is always detected", "statement": "A packet number skipped to detect optimistic acknowledgements is never used by any packet; any ACK frame covering it is refused with an error, in any packet number space; the check stays in force until the peer acknowledges a packet really sent after the skipped number; the internal assertions hold; and skipping is armed again and again, each time within 20 packets plus twice the congestion window.", "quantifier": "all executions, all ACK ranges, all paths", "why_tests_cant": "needs all interleavings of sends and acknowledgements", "anchors": ["quiche/src/packet.rs: PktNumManager", "quiche/src/lib.rs: send_single, process_frame", "quiche/src/recovery/congestion/recovery.rs: detect_and_remove_acked_packets"]}
{"id": "C75", "title": "Acknowledging packet numbers beyond what was sent is a connection error", "statement": "An ACK frame whose largest packet number is beyond all packet numbers sent in that packet number space is refused with an error; ACK frames within what was sent (and not covering the skipped number) are accepted.", "quantifier": "all executions, all ACK ranges", "why_tests_cant": "universal over executions", "anchors": ["quiche/src/lib.rs: process_frame", "quiche/src/packet.rs: PktNumSpace::on_packet_sent"]}
{"id": "C76", "title": "Connection IDs of the handshake are authenticated", "statement": "Transport parameters are accepted only if they repeat the connection IDs of the handshake as seen on the wire: a client insists on the destination ID of its first packet, on the source ID of the server's first packet and, if and only if there was a Retry packet, on the source ID of the Retry packet; a server insists on the source ID of the client's first packet. Well-formed parameters that do so are accepted.", "quantifier": "all connection IDs, all parameters, any number of packets and Retry packets", "why_tests_cant": "unbounded combinations of present, missing and mismatching IDs with and without Retry", "anchors": ["quiche/src/lib.rs: Connection::parse_peer_transport_params, Connection::recv_single", "quiche/src/transport_params.rs: TransportParams::decode"]}
{"id": "C77", "title": "Connection ID advertisements never block sending", "statement": "An endpoint can always build the NEW_CONNECTION_ID frame it wants to send next, so that sending packets never fails because of connection IDs.", "quantifier": "all histories of calls issuing connection IDs, packets sent and declared lost, and RETIRE_CONNECTION_ID frames received", "why_tests_cant": "needs particular interleavings of spurious loss and retirement, out of unboundedly many", "anchors": ["quiche/src/cid.rs: ConnectionIdentifiers::get_new_connection_id_frame_for, retire_scid, mark_advertise_new_scid_seq", "quiche/src/lib.rs: Connection::send_single"]}
{"id": "C78", "title": "Two endpoints agree on connection IDs over any network", "statement": "When both endpoints run this code, neither closes the connection because of the other's NEW_CONNECTION_ID or RETIRE_CONNECTION_ID frames, and every destination connection ID one of them stores is one the other still accepts, whatever packets the network loses, repeats, delays or reorders.", "quantifier": "all interleavings of calls, packets sent, losses declared (rightly or not) and deliveries, with any delay, order and repetition; all limits", "why_tests_cant": "unbounded interleavings of two endpoints and a network", "anchors": ["quiche/src/cid.rs: ConnectionIdentifiers::new_scid, new_dcid, retire_scid, retire_dcid", "quiche/src/lib.rs: Connection::process_frame, send_single"]}
{"id": "C79", "title": "RETIRE_CONNECTION_ID does exactly what it says", "statement": "A RETIRE_CONNECTION_ID frame for a number never issued, or for the connection ID its own packet was sent to, closes the connection with an error; any other frame that is accepted removes exactly that source connection ID, which is handed to the application as retired exactly once, or does nothing if it was retired already.", "quantifier": "all histories of calls and frames", "why_tests_cant": "unbounded histories; which numbers are outstanding depends on all of them", "anchors": ["quiche/src/cid.rs: ConnectionIdentifiers::retire_scid, pop_retired_scid"]}
{"id": "C80", "title": "The table of paths is consistent and bounded", "statement": "Throughout a connection there is at least one path and never more than the larger of one and the configured active connection ID limit; no two paths have the same pair of addresses; a datagram or a call that names addresses finds the path with these addresses exactly if there is one; a connection ID in use on a path is in use on one that exists. A new path replaces another only if that one is not active and has no destination connection ID, and it is refused only if the table is full and there is none such.", "quantifier": "all histories of datagrams, packets sent, timeouts and calls of the application, on clients and servers", "why_tests_cant": "holds in all interleavings of migrations, connection ID retirement and attackers' datagrams from many addresses", "anchors": ["quiche/src/path.rs: PathMap::insert_path, PathMap::make_room_for_new_path, PathMap::path_id_from_addrs", "quiche/src/lib.rs: Connection::get_or_create_recv_path_id, Connection::create_path_on_client"]}
{"id": "C81", "title": "The active path can send", "statement": "While a connection is open, the path that packets go on has a destination connection ID that is still stored, so that the application's send calls do not fail for lack of one that the peer has issued.", "quantifier": "all histories of datagrams, timeouts and API calls", "why_tests_cant": "needs a connection ID shared by two paths after an address change, followed by its retirement", "anchors": ["quiche/src/lib.rs: on_peer_migrated, process_frame (NEW_CONNECTION_ID), send_single", "quiche/src/cid.rs: ConnectionIdentifiers::retire_dcid"]}
{"id": "C82", "title": "Exactly one active path", "statement": "While a connection is open there is exactly one active path, and no API call or packet of a peer that follows the protocol leaves it without one.", "quantifier": "all histories", "why_tests_cant": "depends on the order of retirements, timeouts and migrations", "anchors": ["quiche/src/path.rs: PathMap::get_active_path_id, PathMap::set_active_path", "quiche/src/lib.rs: Connection::retire_dcid, on_timeout, on_peer_migrated"]}
{"id": "C83", "title": "Failed path validations are reported", "statement": "Whenever the validation of a path fails the application gets an event that says so, and a new attempt gets the full number of probes.", "quantifier": "all histories, any number of attempts", "why_tests_cant": "only a second attempt on the same path shows it", "anchors": ["quiche/src/path.rs: PathMap::notify_failed_validations, Path::on_loss_detection_timeout"]}
{"id": "C84", "title": "Late packets to retired connection IDs", "statement": "A packet that arrives after the connection ID it was sent to was retired is dropped without harm to the connection.", "quantifier": "all states, all packets", "why_tests_cant": "needs reordering around a RETIRE_CONNECTION_ID frame", "anchors": ["quiche/src/lib.rs: get_or_create_recv_path_id, Connection::recv", "quiche/src/cid.rs: ConnectionIdentifiers::find_scid_seq"]}
{"id": "C85", "title": "The loss detection timer is armed while data is in flight", "statement": "Whenever bytes are in flight, the connection has a loss detection or probe timeout, so that the loss of the last flight is noticed without further events.", "quantifier": "all histories of sent packets, ACKs, timeouts and discards of packet number spaces", "why_tests_cant": "the missing timer needs a particular combination of packet number spaces and coalesced packets", "anchors": ["quiche/src/recovery/congestion/recovery.rs: LegacyRecovery::pto_time_and_space, LegacyRecovery::set_loss_detection_timer"]}
{"id": "C86", "title": "Probe timeouts follow RFC 9002 and back off exponentially", "statement": "Without a pending loss time the timer is the earliest, over the packet number spaces with packets in flight, of the last ack-eliciting packet's time plus smoothed RTT plus max(4 RTT variations, 1 ms) plus (for application data) the peer's max ack delay, times two to the number of probe timeouts since the last newly acknowledged packet; at most two probes are requested at a time.", "quantifier": "all states, RTT values and numbers of timeouts", "why_tests_cant": "arithmetic over unbounded values and sequences of timeouts", "anchors": ["quiche/src/recovery/congestion/recovery.rs: LegacyRecovery::pto_time_and_space, LegacyRecovery::on_loss_detection_timeout, LegacyRecovery::on_ack_received"]}
{"id": "C87", "title": "RTT estimates stay within the measured samples", "statement": "After any samples the smoothed RTT is between the least sample (less 14 ns of rounding) and the greatest, the variation is at most the greatest, the minimum is the windowed minimum of the samples, and the maximum is exactly the greatest sample, whatever ack delays the peer claims; samples are only taken from ACKs newly acknowledging the largest packet and some ack-eliciting one.", "quantifier": "all sequences of samples, ack delays and times", "why_tests_cant": "unbounded sequences with hostile ack delays; rounding accumulates", "anchors": ["quiche/src/recovery/rtt.rs: RttStats::update_rtt", "quiche/src/recovery/congestion/recovery.rs: LegacyRecovery::on_ack_received"]}
{"id": "C88", "title": "Loss detection is complete", "statement": "After an ACK that acknowledges something new, or a loss timeout, no packet of the space is left undecided that lies the packet threshold or more below the largest acknowledged one or was sent a loss delay or longer ago; if an undecided packet below the largest acknowledged one is left, a loss time is pending, equal to the earliest such packet's send time plus the loss delay.", "quantifier": "all histories with a monotone clock", "why_tests_cant": "depends on the set of open packets after arbitrary histories; the loop stops early and relies on order", "anchors": ["quiche/src/recovery/congestion/recovery.rs: RecoveryEpoch::detect_lost_packets, RecoveryEpoch::drain_acked_and_lost_packets"]}
{"id": "C89", "title": "Acknowledging packets that were never sent is refused", "statement": "Once a packet number has been skipped, no ACK frame covering it is accepted for the rest of the connection.", "quantifier": "all sequences of packets and ACK frames", "why_tests_cant": "the attack needs two particular ACK frames in sequence; tests acknowledge the skipped number directly", "anchors": ["quiche/src/packet.rs: PktNumManager", "quiche/src/lib.rs: process_frame (ACK)", "quiche/src/recovery/congestion/recovery.rs: RecoveryEpoch::detect_and_remove_acked_packets"]}
{"id": "C90", "title": "The end of a connection is final", "statement": "is_closed() and is_draining() never go back to false and the draining deadline never moves; local_error() never changes once set and neither does peer_error() once the connection is closed or draining; from then on nothing is sent, no packet is processed, and close() does nothing.", "quantifier": "all sequences of calls with any packets, timers and times", "why_tests_cant": "every later sequence of calls must be covered", "anchors": ["quiche/src/lib.rs: Connection::recv_single, Connection::send_single, Connection::close, Connection::on_timeout, Connection::mark_closed"]}
{"id": "C91", "title": "A connection says goodbye at most once", "statement": "At most one CONNECTION_CLOSE frame is ever sent; it is the last frame sent, it carries local_error(), and the connection is draining afterwards. Once local_error() is set no frames are sent but ACK, PATH_RESPONSE, PATH_CHALLENGE and CONNECTION_CLOSE, and only in packets for which there are send keys.", "quantifier": "all sequences of calls", "why_tests_cant": "unbounded histories; several packets per call", "anchors": ["quiche/src/lib.rs: Connection::send, Connection::send_single"]}
{"id": "C92", "title": "Draining lasts three probe timeouts", "statement": "Draining starts only with a CONNECTION_CLOSE received or sent, with a deadline three probe timeouts later. Until then the connection is not closed (except by a stateless reset), and the first timeout handled at or after the deadline closes it.", "quantifier": "all sequences of calls, times and probe timeouts", "why_tests_cant": "needs all interleavings and clock values", "anchors": ["quiche/src/lib.rs: Connection::process_frame (CONNECTION_CLOSE), Connection::send_single, Connection::on_timeout"]}
{"id": "C93", "title": "After close() the peer is told", "statement": "After a successful close() on a connection that has processed a packet, a CONNECTION_CLOSE frame with the error is sent as soon as packets can be sent.", "quantifier": "all states of the handshake, error codes, reasons and continuations", "why_tests_cant": "failure is the absence of a frame in all continuations; tests close confirmed connections with short reasons", "anchors": ["quiche/src/lib.rs: Connection::close, Connection::write_pkt_type, Connection::send_single, Connection::recv_single"]}
{"id": "C94", "title": "The timeout reported is the earliest, and nothing happens before it", "statement": "While the connection is not closed, timeout_instant() is the draining deadline if there is one and otherwise the least of the idle deadline, the loss detection timers of all paths and the key update timer. Given an active path, on_timeout() before that instant changes nothing; at that instant or later it serves the timer that was due.", "quantifier": "all states, timers and times", "why_tests_cant": "any number of paths and timers", "anchors": ["quiche/src/lib.rs: Connection::timeout_instant, Connection::on_timeout"]}
{"id": "C95", "title": "The cause of the end is logged", "statement": "When a connection ends, the qlog event for it names what ended it: a handshake timeout, an idle timeout, the peer's error or the local error.", "quantifier": "all sequences of calls", "why_tests_cant": "the order of assignments matters on one path only; qlog output is rarely asserted", "anchors": ["quiche/src/lib.rs: Connection::mark_closed, Connection::on_timeout"]}
{"id": "C96", "title": "Errors close the connection, and close() records what it was given", "statement": "close() succeeds exactly if the connection is neither closed nor draining and has no local error; then local_error() is what was given, except that an application error before the handshake is complete (and outside early data) becomes the transport error APPLICATION_ERROR without a reason; a connection that processed no packet is closed at once, and nothing else changes. When recv() returns an error the connection is closed, draining or has a local error afterwards: the transport error returned, or the one TLS raised. A stateless reset, and a timeout handled with no path left, close it.", "quantifier": "all states, datagrams, codes and reasons", "why_tests_cant": "every error path of packet processing at every point of a datagram", "anchors": ["quiche/src/lib.rs: Connection::close, Connection::recv, Connection::on_timeout"]}
{"id": "C97", "title": "QPACK decoding accepts the static-only format, and nothing else", "statement": "Decoding a field section succeeds exactly when the bytes are a section of RFC 9204 without references to the dynamic table (required insert count zero, indices within the static table of appendix A, valid Huffman strings) whose size is within the limit, and then yields the headers the bytes denote. Every reference to the dynamic table is refused.", "quantifier": "all byte strings and limits", "why_tests_cant": "adversarial input; many encodings of the same header", "anchors": ["quiche/src/h3/qpack/decoder.rs: Decoder::decode, lookup_static, decode_int, decode_str", "quiche/src/h3/qpack/static_table.rs: STATIC_DECODE_TABLE, STATIC_ENCODE_TABLE"]}
{"id": "C98", "title": "HTTP/3 frame payloads are read exactly as the format says", "statement": "Reading the payload of an HTTP/3 frame succeeds exactly when all of the payload is in the format of its type (RFC 9114 section 7.2), and yields the content it denotes; any other payload is refused with a connection error code of HTTP/3.", "quantifier": "all frame types and payloads", "why_tests_cant": "adversarial payloads; unbounded settings lists, non-minimal integers", "anchors": ["quiche/src/h3/frame.rs: Frame::from_bytes, parse_settings_frame, parse_push_promise, parse_priority_update", "quiche/src/h3/mod.rs: Error::to_wire"]}
{"id": "C99", "title": "The SETTINGS an endpoint sends tell its configuration and are accepted", "statement": "For every configuration made with the public API, the SETTINGS frame sent is either too large for its buffer or is accepted by a peer, which learns exactly the configured values, whatever grease is drawn.", "quantifier": "all configurations made by sequences of API calls, all random draws", "why_tests_cant": "all combinations of settings and values", "anchors": ["quiche/src/h3/mod.rs: Config, Config::set_additional_settings, Connection::send_settings, grease_value", "quiche/src/h3/frame.rs: Frame::to_bytes, parse_settings_frame"]}
{"id": "C100", "title": "Responses follow the grammar of messages", "statement": "In every execution, the frames accepted on any bidirectional stream, also one opened by a request of this endpoint, are those of a message.", "quantifier": "all executions", "why_tests_cant": "adversarial peers, unbounded sequences", "anchors": ["quiche/src/h3/stream.rs: Stream::set_frame_type, try_fill_buffer, try_consume_varint, try_consume_frame, try_consume_data", "quiche/src/h3/mod.rs: Connection::poll, process_readable_stream, process_frame", "quiche/src/h3/mod.rs: Connection::recv_body"]}
{"id": "C101", "title": "What an application gets from a stream depends only on the bytes of the stream", "statement": "In two executions, however the bytes of a stream arrive, whatever happens on other streams and however poll and recv_body are called: if the same bytes were read from the stream, the application has got the same headers and body bytes. Finished is told only when the peer ended the stream and all content was given; Reset only with the code of the peer.", "quantifier": "all pairs of executions", "why_tests_cant": "all fragmentations and interleavings", "anchors": ["quiche/src/h3/stream.rs: Stream::set_frame_type, try_fill_buffer, try_consume_varint, try_consume_frame, try_consume_data", "quiche/src/h3/mod.rs: Connection::poll, process_readable_stream, process_frame", "quiche/src/h3/mod.rs: Connection::recv_body"]}
{"id": "C102", "title": "A stream that ends within a frame is an error", "statement": "A stream that is reported finished, and was not reset, consists of whole frames (RFC 9114, section 7.1).", "quantifier": "all executions", "why_tests_cant": "every position of the end of a stream", "anchors": ["quiche/src/h3/stream.rs: Stream::set_frame_type, try_fill_buffer, try_consume_varint, try_consume_frame, try_consume_data", "quiche/src/h3/mod.rs: Connection::poll, process_readable_stream, process_frame", "quiche/src/h3/mod.rs: Connection::recv_body"]}
{"id": "C103", "title": "Critical streams are unique and must not be closed", "statement": "As long as the connection is not closed because of an error, at most one control stream, one QPACK encoder stream and one QPACK decoder stream of the peer has been accepted, and no push stream; when one of them has ended, the next poll does not report that all is well (for the control stream: it closes with H3_CLOSED_CRITICAL_STREAM).", "quantifier": "all executions", "why_tests_cant": "all orders of streams and ends", "anchors": ["quiche/src/h3/mod.rs: Connection::poll, process_readable_stream, process_frame", "quiche/src/h3/mod.rs: process_control_stream", "quiche/src/h3/stream.rs: Stream::set_ty"]}
{"id": "C104", "title": "Identifiers of received GOAWAY never increase", "statement": "In every execution the identifiers of the GOAWAY events never increase; a client gets only identifiers of request streams.", "quantifier": "all executions", "why_tests_cant": "unbounded sequences of frames", "anchors": ["quiche/src/h3/mod.rs: Connection::process_frame (GoAway)"]}
{"id": "C105", "title": "The application is told once that a stream has ended", "statement": "In every execution, poll returns at most one of Finished and Reset, and at most once, for each stream.", "quantifier": "all executions", "why_tests_cant": "all interleavings of ends, resets, reads and sends", "anchors": ["quiche/src/h3/mod.rs: Connection::poll, process_readable_stream, process_frame", "quiche/src/h3/mod.rs: Connection::recv_body", "quiche/src/h3/mod.rs: process_finished_stream, finish_local_stream"]}
{"id": "C106", "title": "No body bytes are left without a Data event", "statement": "When poll reports that nothing is left and recv_body would give bytes of a readable stream, a Data event has been given for the stream since recv_body last returned Done.", "quantifier": "all executions", "why_tests_cant": "edge-triggered events under all interleavings", "anchors": ["quiche/src/h3/mod.rs: Connection::poll, process_readable_stream, process_frame", "quiche/src/h3/mod.rs: Connection::recv_body", "quiche/src/h3/stream.rs: Stream::try_trigger_data_event, reset_data_event"]}
{"id": "C107", "title": "A server does not open bidirectional streams", "statement": "A client that learns of a bidirectional stream opened by the server closes the connection with H3_STREAM_CREATION_ERROR (RFC 9114, section 6.1); there are no events for such streams.", "quantifier": "all executions", "why_tests_cant": "adversarial peers", "anchors": ["quiche/src/h3/mod.rs: Connection::poll, process_readable_stream, process_frame"]}
{"id": "C108", "title": "Streams that are over are forgotten", "statement": "When everything of a stream has been told to the application and there is nothing more to send on it, the connection keeps no entry for it (other than for the critical streams).", "quantifier": "all executions", "why_tests_cant": "leaks over unbounded executions", "anchors": ["quiche/src/h3/mod.rs: finish_local_stream, process_finished_stream, poll, process_readable_stream (StreamType::Unknown)"]}
{"id": "C110", "title": "The connection is closed with the code of the error that is returned", "statement": "When poll or recv_body return an error of the connection, the connection has been closed with the code of this error, which is a registered one; otherwise it is not closed.", "quantifier": "all executions", "why_tests_cant": "all error paths", "anchors": ["quiche/src/h3/mod.rs: Connection::poll, process_readable_stream, process_frame", "quiche/src/h3/mod.rs: Connection::recv_body", "quiche/src/h3/mod.rs: Error::to_wire"]}
{"id": "C111", "title": "Priorities are stored only for request streams the peer may open", "statement": "A PRIORITY_UPDATE is accepted only by servers, and only for request streams below the limit of streams (RFC 9218, section 7.1).", "quantifier": "all executions", "why_tests_cant": "all identifiers and limits", "anchors": ["quiche/src/h3/mod.rs: Connection::process_frame (PriorityUpdateRequest)"]}
{"id": "C112", "title": "Receiving HTTP/3 always comes to an end and never panics", "statement": "In every execution, poll and recv_body terminate and do not panic; recv_body writes no more than there is room for and returns the number of bytes written.", "quantifier": "all executions, all buffer sizes", "why_tests_cant": "adversarial input of any length", "anchors": ["quiche/src/h3/stream.rs: Stream::set_frame_type, try_fill_buffer, try_consume_varint, try_consume_frame, try_consume_data", "quiche/src/h3/mod.rs: Connection::poll, process_readable_stream, process_frame", "quiche/src/h3/mod.rs: Connection::recv_body"]}
{"id": "C109", "title": "What is sent on a request stream is whole frames carrying exactly what was accepted", "statement": "In every execution, whatever calls fail and however capacity changes: the bytes given to the transport on a request stream are a sequence of whole frames whose HEADERS and DATA carry, in order, exactly the header lists and body bytes accepted by successful calls, and the stream was ended if and only if a call that was to end it has succeeded.", "quantifier": "all executions: all calls that send, all capacities, STOP_SENDING, shutdown and collection at any time, all grease values", "why_tests_cant": "partial writes at every possible capacity, unbounded interleavings", "anchors": ["quiche/src/h3/mod.rs: Connection::send_request, send_response, send_additional_headers, send_headers, send_grease_frames", "quiche/src/h3/mod.rs: Connection::send_body"]}
{"id": "C113", "title": "What is sent follows the grammar of messages", "statement": "In every execution, the frames sent on a request stream form a message (HEADERS first, then DATA, at most one HEADERS after data and nothing after it); calls that would break this are refused.", "quantifier": "all executions", "why_tests_cant": "all orders of calls and failures", "anchors": ["quiche/src/h3/mod.rs: Connection::send_request, send_response, send_additional_headers, send_headers, send_grease_frames", "quiche/src/h3/mod.rs: Connection::send_body"]}
{"id": "C114", "title": "The receiver gets what the sender has sent", "statement": "For all executions of a sender and of a receiver: if the bytes that have arrived on a stream are a beginning of those sent and the header lists are within the receiver's limit, what the receiving application has got is a beginning of what the sending application has sent; when poll says Finished and all bytes have arrived, it is all of it.", "quantifier": "all pairs of executions", "why_tests_cant": "all header lists, bodies, fragmentations and call orders of both endpoints", "anchors": ["quiche/src/h3/mod.rs: Connection::send_request, send_response, send_additional_headers, send_headers, send_grease_frames", "quiche/src/h3/mod.rs: Connection::send_body", "quiche/src/h3/mod.rs: Connection::poll, recv_body", "quiche/src/h3/qpack/encoder.rs: Encoder::encode", "quiche/src/h3/qpack/decoder.rs: Decoder::decode"]}
{"id": "C115", "title": "GOAWAY is sent with identifiers that never increase, and no request follows the peer's GOAWAY", "statement": "In every execution, the identifiers of GOAWAY frames sent never increase; those of a server are identifiers of requests, those of a client are 0; the control stream carries exactly these frames after SETTINGS. After a client has processed a GOAWAY no stream is opened for a request any more.", "quantifier": "all executions", "why_tests_cant": "all sequences of calls", "anchors": ["quiche/src/h3/mod.rs: Connection::send_goaway", "quiche/src/h3/mod.rs: Connection::send_request"]}
{"id": "C116", "title": "Only packets that were received are acknowledged", "statement": "In every execution of a packet number space, every number in an ACK frame that is sent is that of a packet which arrived and was processed before. The ranges of the frame are not empty, ascending, and separated by numbers that are not acknowledged; there are at most 68. Nothing panics.", "quantifier": "all executions: packets in any order with any numbers, duplicates, ACK frames of ours acknowledged or lost at any time", "why_tests_cant": "all orders of arrival, sending, acknowledgement and loss", "anchors": ["quiche/src/lib.rs: Connection::recv_single (recording of the packet number; handling of acknowledged ACK frames)", "quiche/src/lib.rs: Connection::send_single (creation of ACK frames; lost ACK frames)", "quiche/src/packet.rs: PktNumSpace", "quiche/src/ranges.rs: RangeSet"]}
{"id": "C117", "title": "Every packet that asks for it is acknowledged", "statement": "In every execution, every ack-eliciting packet that was processed is reported in an ACK frame that was acknowledged, or in one that was not declared lost, or in the next packet that is built with room for an ACK frame.", "quantifier": "all executions", "why_tests_cant": "needs reordering, loss and acknowledgement of ACK frames in unlucky orders", "anchors": ["quiche/src/lib.rs: Connection::recv_single (recording of the packet number; handling of acknowledged ACK frames)", "quiche/src/lib.rs: Connection::send_single (creation of ACK frames; lost ACK frames)", "quiche/src/packet.rs: PktNumSpace", "quiche/src/ranges.rs: RangeSet"]}
{"id": "C118", "title": "The delay in an ACK frame is that of its largest number", "statement": "In every execution, the delay in an ACK frame is the time from the arrival of the packet with the largest number in the frame to the sending of the frame, divided by two to the power of the exponent advertised. No number is processed twice, so that the time of arrival is unique.", "quantifier": "all executions and clocks", "why_tests_cant": "all orders of arrival and acknowledgement", "anchors": ["quiche/src/lib.rs: Connection::recv_single (recording of the packet number; handling of acknowledged ACK frames)", "quiche/src/lib.rs: Connection::send_single (creation of ACK frames; lost ACK frames)", "quiche/src/packet.rs: PktNumSpace", "quiche/src/ranges.rs: RangeSet"]}
{"id": "C119", "title": "Key updates of a peer that follows the rules are understood", "statement": "If the peer uses generations of keys that do not decrease with the packet number, marks packets with the phase of the generation, updates first after the handshake is confirmed, and again only after it received a packet with the current generation, then in every execution, with reordering, loss, duplicates and forged packets: packets of the current and next generation are always opened, those of the previous one until its key expires; packets are sent with the generation of the newest packet accepted and with its phase; there is never a KEY_UPDATE_ERROR. Forged packets change nothing.", "quantifier": "all executions, all peers that follow the rules, all forged packets", "why_tests_cant": "all interleavings of reordered packets, updates, sending and timers, over any number of updates", "anchors": ["quiche/src/lib.rs: Connection::recv_single (key update)", "quiche/src/lib.rs: Connection::send_single (update_acked, key_phase)", "quiche/src/lib.rs: Connection::on_timeout (key update timer)", "quiche/src/packet.rs: KeyUpdate", "quiche/src/crypto/mod.rs: Open::derive_next_packet_key, Seal::derive_next_packet_key"]}
{"id": "C120", "title": "Old keys are not accepted above new ones", "statement": "No packet is accepted that is protected with older keys than a packet with a lower number that was accepted before (RFC 9001 6.4).", "quantifier": "all executions, all authenticated peers", "why_tests_cant": "needs a peer that breaks the rules and particular reordering", "anchors": ["quiche/src/lib.rs: Connection::recv_single (key update)", "quiche/src/lib.rs: Connection::send_single (update_acked, key_phase)", "quiche/src/lib.rs: Connection::on_timeout (key update timer)", "quiche/src/packet.rs: KeyUpdate", "quiche/src/crypto/mod.rs: Open::derive_next_packet_key, Seal::derive_next_packet_key"]}
{"id": "C121", "title": "Two key updates without an answer in between are an error", "statement": "If the peer updates its keys again before a packet with an ACK frame was sent with the keys of the first update, the connection fails with KEY_UPDATE_ERROR.", "quantifier": "all executions, all authenticated peers", "why_tests_cant": "needs a peer that breaks the rules, in all orders of sending and timers", "anchors": ["quiche/src/lib.rs: Connection::recv_single (key update)", "quiche/src/lib.rs: Connection::send_single (update_acked, key_phase)", "quiche/src/lib.rs: Connection::on_timeout (key update timer)", "quiche/src/packet.rs: KeyUpdate", "quiche/src/crypto/mod.rs: Open::derive_next_packet_key, Seal::derive_next_packet_key"]}
{"id": "C122", "title": "The congestion window has a floor", "statement": "With Reno and CUBIC the congestion window (`cwnd()`) is never below two datagrams of the maximum size in use (RFC 9002 7.2), whatever is sent, acknowledged or lost; the arithmetic of the controllers never divides by zero or underflows.", "quantifier": "all executions, all values of the floating point curve", "why_tests_cant": "all interleavings of losses, undone reductions and changes of the datagram size", "anchors": ["quiche/src/recovery/congestion/reno.rs", "quiche/src/recovery/congestion/cubic.rs", "quiche/src/recovery/congestion/hystart.rs", "quiche/src/recovery/congestion/prr.rs", "quiche/src/recovery/congestion/mod.rs: Congestion", "quiche/src/recovery/congestion/recovery.rs: LegacyRecovery"]}
{"id": "C123", "title": "The window is reduced once per round trip, for every new loss", "statement": "The congestion window shrinks exactly when a packet sent after the last reduction is found lost, and then (Reno) to half, but not below two datagrams (RFC 9002 7.3.2). Losses of packets sent before the last reduction do not reduce it again.", "quantifier": "all executions with times that do not go back", "why_tests_cant": "needs all orders of sends, ACKs and timers, with pauses in between", "anchors": ["quiche/src/recovery/congestion/reno.rs", "quiche/src/recovery/congestion/cubic.rs", "quiche/src/recovery/congestion/hystart.rs", "quiche/src/recovery/congestion/prr.rs", "quiche/src/recovery/congestion/mod.rs: Congestion", "quiche/src/recovery/congestion/recovery.rs: LegacyRecovery"]}
{"id": "C124", "title": "The window grows with acknowledgements only", "statement": "A call raises the congestion window by at most one datagram for each packet newly acknowledged that was sent after the last reduction, and not at all while the sender has nothing to send (RFC 9002 7.8).", "quantifier": "all executions with times that do not go back, all values of the floating point curve", "why_tests_cant": "all interleavings of ACKs, losses and undone reductions", "anchors": ["quiche/src/recovery/congestion/reno.rs", "quiche/src/recovery/congestion/cubic.rs", "quiche/src/recovery/congestion/hystart.rs", "quiche/src/recovery/congestion/prr.rs", "quiche/src/recovery/congestion/mod.rs: Congestion", "quiche/src/recovery/congestion/recovery.rs: LegacyRecovery"]}
{"id": "C125", "title": "A sender that keeps to the allowance keeps to the window", "statement": "If no probe is due, a packet no larger than `cwnd_available()` does not take the bytes in flight above the congestion window (RFC 9002 7).", "quantifier": "all executions", "why_tests_cant": "the allowance is a sum of two counters with separate histories", "anchors": ["quiche/src/recovery/congestion/reno.rs", "quiche/src/recovery/congestion/cubic.rs", "quiche/src/recovery/congestion/hystart.rs", "quiche/src/recovery/congestion/prr.rs", "quiche/src/recovery/congestion/mod.rs: Congestion", "quiche/src/recovery/congestion/recovery.rs: LegacyRecovery"]}
{"id": "C126", "title": "Slow start counts bytes, and ends once", "statement": "Until slow start is left the congestion window is at most the initial window plus the bytes acknowledged (RFC 9002 7.3.1). What is reported about the exit from slow start (`startup_exit`) is set once and does not change; slow start is not entered again.", "quantifier": "all executions", "why_tests_cant": "needs packets of all sizes, undone reductions, HyStart++", "anchors": ["quiche/src/recovery/congestion/reno.rs", "quiche/src/recovery/congestion/cubic.rs", "quiche/src/recovery/congestion/hystart.rs", "quiche/src/recovery/congestion/prr.rs", "quiche/src/recovery/congestion/mod.rs: Congestion", "quiche/src/recovery/congestion/recovery.rs: LegacyRecovery"]}
{"id": "C127", "title": "Limits and abort signals that are lost are sent again", "statement": "When a packet with MAX_DATA, MAX_STREAMS, MAX_STREAM_DATA, RESET_STREAM or STOP_SENDING is declared lost, or `stream_shutdown()` has asked for one of the last two, then until such a frame is sent the connection wants to send a packet, and a packet with room gets one: a limit not below any advertised before, a reset with the same final size, a stop with the same error code (RFC 9000 13.3). Excepted are MAX_STREAM_DATA for streams that are gone and STOP_SENDING for streams for which `stream_finished()` holds.", "quantifier": "all histories of frames, application calls, packets sent, acknowledged and lost", "why_tests_cant": "a frame can be lost any number of times, in any order with everything else that happens to the stream", "anchors": ["quiche/src/lib.rs: send_single", "quiche/src/lib.rs: write_pkt_type", "quiche/src/lib.rs: stream_shutdown", "quiche/src/lib.rs: stream_finished", "quiche/src/stream/mod.rs: StreamMap"]}
{"id": "C128", "title": "Signals about the end of a stream never contradict each other", "statement": "All frames sent that give the final size of a stream (STREAM with FIN, RESET_STREAM) give the same, and no data beyond it is ever sent; all STOP_SENDING frames for a stream carry the same error code, and so do all RESET_STREAM frames (RFC 9000 4.5, 13.3).", "quantifier": "all histories of frames, application calls, packets sent, acknowledged and lost", "why_tests_cant": "needs all interleavings of FIN, reset by the application, STOP_SENDING from the peer, and losses", "anchors": ["quiche/src/lib.rs: send_single", "quiche/src/lib.rs: stream_shutdown", "quiche/src/lib.rs: process_frame", "quiche/src/stream/send_buf.rs", "quiche/src/stream/recv_buf.rs"]}
{"id": "C129", "title": "STREAMS_BLOCKED and HANDSHAKE_DONE are repeated until they arrive, and no longer", "statement": "When the application is refused a stream at a limit the peer has not been told about, or the most recent STREAMS_BLOCKED is lost, the next packet with room carries STREAMS_BLOCKED; a limit is not repeated without a loss, limits do not decrease, and one is only sent while the application is blocked at it. A server sends HANDSHAKE_DONE after the handshake completes, again after a loss unless one was acknowledged, and never after one was acknowledged; a client never does.", "quantifier": "all orders of grants, refusals, packets built, acknowledgements and losses", "why_tests_cant": "several copies of a frame can be in flight, lost and acknowledged in any order", "anchors": ["quiche/src/lib.rs: StreamsBlockedState", "quiche/src/lib.rs: stream_send", "quiche/src/lib.rs: send_single", "quiche/src/lib.rs: should_send_handshake_done"]}
{"id": "C130", "title": "With BBR, bytes and packets in flight are accounted exactly", "statement": "With `bbr2_gcongestion`, the bytes in flight are the sizes of the packets sent in flight that were neither acknowledged, declared lost nor dropped with their packet number space, and the number of packets in flight of each space is the number of those packets, after any history of packets sent, ACK frames with any ranges, timeouts, changes of path and discarded spaces. The sum never goes below zero.", "quantifier": "all congestion controllers, all histories of calls with increasing packet numbers, all ranges in ACK frames", "why_tests_cant": "needs every interleaving of ACKs, late ACKs of lost packets, losses and discarded spaces", "anchors": ["quiche/src/recovery/gcongestion/recovery.rs: on_packet_sent", "quiche/src/recovery/gcongestion/recovery.rs: on_ack_received", "quiche/src/recovery/gcongestion/recovery.rs: detect_and_remove_acked_packets", "quiche/src/recovery/gcongestion/recovery.rs: detect_and_remove_lost_packets", "quiche/src/recovery/gcongestion/recovery.rs: on_pkt_num_space_discarded", "quiche/src/lib.rs: send_single"]}
{"id": "C131", "title": "With BBR, each packet meets one fate and its frames are handed out once", "statement": "With `bbr2_gcongestion`, every packet sent is either open, acknowledged, declared lost or dropped with its space, exactly one of these. An ACK acknowledges exactly the open packets in its ranges. The frames handed out as acknowledged are the frames of the acknowledged packets in order, those handed out as lost are those of the lost packets in order, each once; a probe timeout repeats only frames of packets that were open, and no DATAGRAM frames. A late ACK of a packet declared lost is counted as a spurious loss at most once, and only for packets declared lost.", "quantifier": "all congestion controllers, all histories of calls with increasing packet numbers, all ranges in ACK frames", "why_tests_cant": "each packet's fate depends on all events since it was sent", "anchors": ["quiche/src/recovery/gcongestion/recovery.rs: detect_and_remove_acked_packets", "quiche/src/recovery/gcongestion/recovery.rs: detect_and_remove_lost_packets", "quiche/src/recovery/gcongestion/recovery.rs: next_acked_frame", "quiche/src/recovery/gcongestion/recovery.rs: next_lost_frame", "quiche/src/recovery/gcongestion/recovery.rs: on_loss_detection_timeout"]}
{"id": "C132", "title": "BBR and the pacer are told of every packet, once", "statement": "The pacer (and through it BBR) is told of every packet sent in flight with its recorded time and size and the bytes in flight before it; with the packets acknowledged and lost by an event it is told the true bytes in flight before and after; it is told the fate of a packet (acknowledged, lost or neutered) at most once, and of every packet sent in flight whose fate was decided; the count of lost packets in the statistics is the number of lost packets reported. The least unacknowledged packet number passed with an event is below all open packets.", "quantifier": "all congestion controllers, all histories of calls with increasing packet numbers", "why_tests_cant": "relates everything ever reported with everything that ever happened", "anchors": ["quiche/src/recovery/gcongestion/recovery.rs: on_packet_sent", "quiche/src/recovery/gcongestion/recovery.rs: on_ack_received", "quiche/src/recovery/gcongestion/recovery.rs: on_loss_detection_timeout", "quiche/src/recovery/gcongestion/recovery.rs: on_path_change", "quiche/src/recovery/gcongestion/recovery.rs: discard", "quiche/src/recovery/gcongestion/recovery.rs: least_unacked"]}
{"id": "C133", "title": "With BBR, loss detection finds exactly the overdue packets, and adapts to reordering", "statement": "With `bbr2_gcongestion`, a packet is declared lost only if a packet sent not before it was acknowledged and it is the packet threshold behind an acknowledged one or was sent a loss delay ago; after an ACK of something new, a loss timeout or a change of path no open packet of the space is overdue, and a loss time is pending for the first one overtaken. The packet threshold is between 3 and 20 and never falls; after a spurious loss by a distance below 20 no packet is declared lost for being overtaken by that distance. With relaxed thresholds there is no packet threshold after the first spurious loss and the time threshold stays between 9/8 and 2.", "quantifier": "all congestion controllers, all histories of calls with increasing packet numbers, all ranges in ACK frames", "why_tests_cant": "depends on unbounded sequences of spurious losses and on recorded times chosen by the pacer", "anchors": ["quiche/src/recovery/gcongestion/recovery.rs: detect_and_remove_lost_packets", "quiche/src/recovery/gcongestion/recovery.rs: LossThreshold", "quiche/src/recovery/gcongestion/recovery.rs: on_ack_received", "quiche/src/recovery/gcongestion/recovery.rs: on_path_change"]}
{"id": "C134", "title": "With BBR, a timer is armed while data is in flight and backs off", "statement": "With `bbr2_gcongestion`, whenever bytes are in flight a loss detection timer is armed; if a loss time is pending it is the earliest one; otherwise it is the earliest over the spaces with packets in flight of the time of the last ack-eliciting packet plus the probe timeout of RFC 9002 6.2.1, times two to the number of probe timeouts since the last newly acknowledged packet; one probe is asked for the first time and two from then on.", "quantifier": "all congestion controllers, all states and histories of calls", "why_tests_cant": "the timer depends on all three packet number spaces and the whole history", "anchors": ["quiche/src/recovery/gcongestion/recovery.rs: set_loss_detection_timer", "quiche/src/recovery/gcongestion/recovery.rs: pto_time_and_space", "quiche/src/recovery/gcongestion/recovery.rs: loss_time_and_space", "quiche/src/recovery/gcongestion/recovery.rs: on_loss_detection_timeout"]}
{"id": "C135", "title": "Bandwidth conversions are exact quotients, saturated", "statement": "`transfer_time` and `to_bytes_per_period` of a bandwidth are the exact quotients rounded down and capped at `u64::MAX`, whichever arithmetic path computes them; more bandwidth or time never gives fewer bytes or more time; converting forth and back never gains. A bandwidth computed from up to 2305843009 bytes and a time below 584 years is the exact quotient and at least 1 bit/s.", "quantifier": "all bandwidths, byte counts and durations", "why_tests_cant": "the fast and the slow path differ only for values over 2^64 and boundary cases", "anchors": ["quiche/src/recovery/bandwidth.rs: from_bytes_and_time_delta", "quiche/src/recovery/bandwidth.rs: transfer_time", "quiche/src/recovery/bandwidth.rs: to_bytes_per_period"]}
{"id": "C136", "title": "Pacing with BBR keeps the maximum rate and bounds bursts", "statement": "With pacing enabled and BBR, after at most ten unpaced packets over the life of a connection each ack-eliciting packet moves the release time of the next one by its transfer time at the pacing rate, counted from the later of its sending and its own release time; so with a maximum pacing rate the packets released never exceed that rate over any stretch. At most two packets are released together, two only with a window of 8 packets, 1.2 Mbit/s and room in the window. A loss ends the initial burst. A release time reported is in the future; two release times are the same if 50 microseconds apart. With pacing disabled packets are released at once.", "quantifier": "all sequences of packets sent, acknowledgements, losses and app-limited marks, all answers of the congestion controller", "why_tests_cant": "the rate bound is over all stretches of all histories", "anchors": ["quiche/src/recovery/gcongestion/pacer.rs: on_packet_sent", "quiche/src/recovery/gcongestion/pacer.rs: get_next_release_time", "quiche/src/recovery/gcongestion/pacer.rs: pacing_rate", "quiche/src/recovery/mod.rs: ReleaseDecision"]}
{"id": "C137", "title": "The windowed maximum filter of BBR is sound", "statement": "With samples in order of time the windowed filter never panics. There is an estimate exactly if there is a sample since the last clear or reset; it is such a sample, at least as large as all later ones, and right after an update not older than the window and not smaller than the newest sample.", "quantifier": "all sequences of updates, resets and clears with times not going back, all total preorders of values", "why_tests_cant": "three estimates age and replace each other in many combinations", "anchors": ["quiche/src/recovery/gcongestion/bbr/windowed_filter.rs: update", "quiche/src/recovery/gcongestion/bbr/windowed_filter.rs: reset", "quiche/src/recovery/gcongestion/bbr/windowed_filter.rs: get_best"]}
{"id": "C138", "title": "The bandwidth sampler accounts for all bytes and never panics", "statement": "With increasing packet numbers and rounds not going back, no `unwrap`, assertion or subtraction of the bandwidth sampler fails, whatever packets are sent, acknowledged (also twice or never sent), lost, neutered or removed as obsolete. Its totals of bytes sent, acknowledged, lost and neutered and its packets outstanding are those of an independent ledger; bytes acknowledged, neutered and outstanding never exceed bytes sent.", "quantifier": "all histories of sampler operations", "why_tests_cant": "needs all orders of acknowledgements, losses and removals over a sparse indexed queue", "anchors": ["quiche/src/recovery/gcongestion/bbr/bandwidth_sampler.rs: on_packet_sent", "quiche/src/recovery/gcongestion/bbr/bandwidth_sampler.rs: on_congestion_event", "quiche/src/recovery/gcongestion/bbr/bandwidth_sampler.rs: on_packet_acknowledged", "quiche/src/recovery/gcongestion/bbr/bandwidth_sampler.rs: remove_obsolete_packets"]}
{"id": "C139", "title": "Bandwidth samples of BBR are measured rates", "statement": "The bandwidth, round-trip time and inflight reported for an ACK are those of a packet acknowledged by it and still outstanding; the bandwidth is the lesser of a rate of sending and a rate of acknowledgement between two recorded points, so over some stretch ending now bytes were acknowledged at that rate or faster. No sample of the ACK has a larger bandwidth, a smaller round trip or more bytes than reported; an ACK of unknown packets reports nothing; each outstanding packet sent before counts. The app-limited flag and the state at sending are those of the sample's own packet or the last packet lost.", "quantifier": "all histories of sampler operations and all ACK events", "why_tests_cant": "ranges over all interleavings that fix the two points of the slope", "anchors": ["quiche/src/recovery/gcongestion/bbr/bandwidth_sampler.rs: on_packet_acknowledged", "quiche/src/recovery/gcongestion/bbr/bandwidth_sampler.rs: on_congestion_event", "quiche/src/recovery/gcongestion/bbr/bandwidth_sampler.rs: choose_a0_point", "quiche/src/recovery/gcongestion/bbr/bandwidth_sampler.rs: RecentAckPoints"]}
{"id": "C140", "title": "Extra acknowledged bytes of BBR are real", "statement": "Extra bytes reported with an ACK (ack aggregation) are the bytes acknowledged since the start of an aggregation epoch at an earlier acknowledgement, less what the bandwidth explains in that time; the bandwidth used is the greater of the new sample and the maximum, below the upper bound. The height kept is never more than the bytes ever acknowledged.", "quantifier": "all histories of sampler operations", "why_tests_cant": "epochs start and end depending on all earlier acknowledgements", "anchors": ["quiche/src/recovery/gcongestion/bbr/bandwidth_sampler.rs: MaxAckHeightTracker::update", "quiche/src/recovery/gcongestion/bbr/bandwidth_sampler.rs: on_ack_event_end"]}
{"id": "C141", "title": "What BBR knows of the path was measured", "statement": "The minimum round trip BBR works with is the configured initial one or the time from the sending of some packet to its acknowledgement; its maximum bandwidth is zero or the rate measured with some packet acknowledged. After an ACK the minimum is not above the round trip the ACK shows, and a measured bandwidth not limited by the application is not ignored. The minimum is raised only by an ACK that leads to ProbeRTT, to the round trip of that ACK, and never within 10 s of having been found; the bandwidth grows only to a rate just measured. An ACK ends at most one round; of two ACKs that end rounds the second acknowledges a packet sent after the first; an ACK of the last packet sent after an event, with no quiet time in between, ends the round.", "quantifier": "all parameters, all histories of packets sent, ACKs, losses and other events with increasing packet numbers", "why_tests_cant": "the filters age over cycles of phases that depend on the whole history", "anchors": ["quiche/src/recovery/gcongestion/bbr2/network_model.rs: on_congestion_event_start", "quiche/src/recovery/gcongestion/bbr2/network_model.rs: RoundTripCounter", "quiche/src/recovery/gcongestion/bbr2/network_model.rs: MinRttFilter", "quiche/src/recovery/gcongestion/bbr2/network_model.rs: MaxBandwidthFilter", "quiche/src/recovery/gcongestion/bbr2/network_model.rs: maybe_expire_min_rtt"]}
{"id": "C142", "title": "BBR's modes come to rest, in order, with their gains in force", "statement": "BBR never panics. An ACK or loss event changes the mode at most three times and comes to rest (the loop over modes always ends before its limit): Startup leads to Drain, Drain to ProbeBW, ProbeBW and ProbeRTT to each other; Startup and Drain are never come back to. Outside of events only a packet sent after quiescence changes the mode, from ProbeRTT to ProbeBW. After an event the gains are those of the mode and phase. The pacing rate is then the gain times the estimated bandwidth once Startup has been left; before, apart from the very first acknowledgement (which sets it from the window and the round trip) and with the default treatment of losses, it does not fall below what it was. Startup is left exactly for bandwidth that stopped growing for three rounds, a standing queue if configured, or losses; the reason, window and bandwidth at that time are recorded and stay.", "quantifier": "all parameters, all float arithmetic, all histories of events with increasing packet numbers and byte counts in 64 bits", "why_tests_cant": "ranges over all histories and all modes reachable in one event", "anchors": ["quiche/src/recovery/gcongestion/bbr2.rs: on_congestion_event", "quiche/src/recovery/gcongestion/bbr2.rs: update_pacing_rate", "quiche/src/recovery/gcongestion/bbr2/mode.rs: do_on_congestion_event", "quiche/src/recovery/gcongestion/bbr2/startup.rs: on_congestion_event", "quiche/src/recovery/gcongestion/bbr2/drain.rs: on_congestion_event", "quiche/src/recovery/gcongestion/bbr2/probe_bw.rs: on_congestion_event", "quiche/src/recovery/gcongestion/bbr2/probe_rtt.rs: on_congestion_event"]}
{"id": "C143", "title": "BBR's window stays within its bounds and grows by what is acknowledged", "statement": "After each event BBR's congestion window lies between its minimum (the initial window) and its maximum; an event adds at most the bytes it acknowledges. After Startup the window is at most the gain of the mode times the bandwidth-delay product plus the height of ACK aggregation, and within the limit on bytes in flight of the mode, unless the minimum is larger. In Startup it grows by the bytes acknowledged while below the target and does not shrink. At constant packet size the window never exceeds the initial window plus all bytes acknowledged. A change of packet size scales window and bounds, exactly for whole packets. The window never falls below the initial window.", "quantifier": "all parameters, all float arithmetic, all histories of events", "why_tests_cant": "bounds over all histories and all reachable models", "anchors": ["quiche/src/recovery/gcongestion/bbr2.rs: update_congestion_window", "quiche/src/recovery/gcongestion/bbr2.rs: get_target_congestion_window", "quiche/src/recovery/gcongestion/bbr2.rs: update_mss", "quiche/src/recovery/gcongestion/bbr2.rs: limit_cwnd", "quiche/src/recovery/gcongestion/pacer.rs: on_congestion_event"]}
{"id": "C144", "title": "ProbeRTT ends", "statement": "In ProbeRTT the first event that leaves at most half the bandwidth-delay product in flight sets the end of ProbeRTT 200 ms later; until then it stays, and the first event after leads to ProbeBW. A sender that keeps to the window leaves ProbeRTT within a bounded number of round trips.", "quantifier": "all reachable states and all events", "why_tests_cant": "needs long runs on slow paths", "anchors": ["quiche/src/recovery/gcongestion/bbr2/probe_rtt.rs: on_congestion_event", "quiche/src/recovery/gcongestion/bbr2/probe_rtt.rs: inflight_target", "quiche/src/recovery/gcongestion/bbr2/probe_rtt.rs: get_cwnd_limits"]}
{"id": "C145", "title": "BBR's cycle of probing: what is remembered, what is forgotten, and when the bound on the bytes in flight moves", "statement": "If events come in order of time, a bandwidth measured without limit by the application is not above BBR's estimate until probing ends the next time (PROBE_UP gives way to PROBE_DOWN, or Startup and Drain are over). Once probing has ended twice and PROBE_DOWN been left again, the estimate is not above what was reported since the first end, if something was measured in between. The upper bound on the bytes in flight is moved by ACK and loss events only. It is lowered only if enough events of the round had losses and the bytes lost exceed the threshold part of what was in flight: in Startup, not below the bandwidth-delay product; in PROBE_UP or before the first round of PROBE_DOWN has ended, not below what was in flight when the last packet acknowledged was sent nor below 0.7 times the smaller of window and bandwidth-delay product. It is raised at most to what was in flight, unless in PROBE_UP the window was full and no smaller than the bound.", "quantifier": "all parameters, all float arithmetic, all histories with events in order of time", "why_tests_cant": "two whole cycles of phases, with any events in between", "anchors": ["quiche/src/recovery/gcongestion/bbr2/probe_bw.rs: maybe_adapt_upper_bounds", "quiche/src/recovery/gcongestion/bbr2/probe_bw.rs: update_probe_down", "quiche/src/recovery/gcongestion/bbr2/probe_bw.rs: exit_probe_down", "quiche/src/recovery/gcongestion/bbr2/probe_bw.rs: probe_inflight_high_upward", "quiche/src/recovery/gcongestion/bbr2/startup.rs: check_excessive_losses", "quiche/src/recovery/gcongestion/bbr2/network_model.rs: advance_max_bandwidth_filter", "quiche/src/recovery/gcongestion/bbr2/network_model.rs: is_inflight_too_high"]}
{"id": "C146", "title": "BBR's short-term lower bounds: none while probing, lowered only for losses and not below what was delivered", "statement": "With the default treatment of losses and events in order of time: in Startup, PROBE_REFILL and PROBE_UP the bandwidth estimate is the maximum measured, and no lower bound limits the bytes in flight. The estimate never exceeds the maximum measured. Otherwise the lower bounds change only when a round with losses ends: the bound on bandwidth becomes the larger of the bandwidth delivered in the round and 0.7 times what it was (first: the maximum measured), that on the bytes in flight at most the larger of the bytes delivered and 0.7 times what it was (first: the window). A bandwidth reported in the round is never above a bound set at its end. Without losses since the end of a round the bounds are kept, given up with PROBE_REFILL, or that on the bytes in flight made smaller; when PROBE_DOWN gives way to PROBE_CRUISE it is at most the upper bound.", "quantifier": "all parameters with the default treatment of losses, all float arithmetic, all histories with events in order of time", "why_tests_cant": "all histories of phases, rounds and losses", "anchors": ["quiche/src/recovery/gcongestion/bbr2/network_model.rs: adapt_lower_bounds", "quiche/src/recovery/gcongestion/bbr2/network_model.rs: on_congestion_event_start", "quiche/src/recovery/gcongestion/bbr2/network_model.rs: cap_inflight_lo", "quiche/src/recovery/gcongestion/bbr2/network_model.rs: bandwidth_estimate", "quiche/src/recovery/gcongestion/bbr2/probe_bw.rs: enter_probe_refill", "quiche/src/recovery/gcongestion/bbr2/probe_bw.rs: enter_probe_cruise"]}
{"id": "C147", "title": "BBR's Startup ends for a plateau exactly after three rounds in a row without growth", "statement": "Startup ends for a plateau of bandwidth with an event exactly if the event ends a round, known and not limited by the application, and counting this one the bandwidth has failed to grow by a quarter, at the ends of at least three rounds in a row, over its value at the last end of a round at which it had (or 0, from the start). Rounds of unknown state do not count, nor do (if so configured) those limited by the application, but growth at the end of any round starts the count again. The exit recorded has the window and the maximum bandwidth at that time.", "quantifier": "all parameters, all float arithmetic, all histories with increasing packet numbers and byte counts in 64 bits", "why_tests_cant": "all histories of rounds and bandwidths", "anchors": ["quiche/src/recovery/gcongestion/bbr2/network_model.rs: has_bandwidth_growth", "quiche/src/recovery/gcongestion/bbr2/startup.rs: on_congestion_event"]}
{"id": "C148", "title": "A retired connection ID of ours does not stop sending", "statement": "While a connection is open, the path that packets go on does not name a connection ID of ours that the peer has retired, so that the application's send calls do not fail because of it.", "quantifier": "all histories of datagrams, timeouts and API calls", "why_tests_cant": "needs one connection ID used on two paths, its retirement seen on one of them, and a lost probe on the other", "anchors": ["quiche/src/lib.rs: get_or_create_recv_path_id, process_frame (RETIRE_CONNECTION_ID), send_single, get_send_path_id", "quiche/src/cid.rs: ConnectionIdentifiers::retire_scid"]}
{"id": "C149", "title": "A stream from end to end", "statement": "Between two endpoints, over a network that may lose, delay, reorder and repeat packets: no stream frame is ever answered with an error; what the reader gets is always a prefix of what the writer wrote; what the writer knows to be acknowledged is at the reader, so that a stream the writer counts as done can be read completely; and the reader is told about the end only if the writer ended the stream and the reader has everything, and then it is told.", "quantifier": "all histories of writes, reads, packets sent, delivered any number of times in any order, acknowledged or declared lost (rightly or not), window updates, shutdowns, STOP_SENDING and RESET_STREAM, for all initial limits and windows", "why_tests_cant": "needs both endpoints and every interleaving of loss, repetition and reordering; a witness needs a retransmission that gains a FIN after its data was read, or a FIN frame that overtakes RESET_STREAM", "anchors": ["quiche/src/stream/send_buf.rs: SendBuf", "quiche/src/stream/recv_buf.rs: RecvBuf", "quiche/src/lib.rs: stream_shutdown, send_single (STREAM frames), process_frame (STREAM, RESET_STREAM, MAX_STREAM_DATA, STOP_SENDING)"]}
{"id": "C150", "title": "A stream between two endpoints never gets stuck", "statement": "Whatever was lost so far, what was written to a stream can still be delivered with packets sent from now on, and the reader of an ended stream then learns of its end; and as long as nobody gave up, the writer can always be given room for more, so that any amount of data can be transferred and the stream be ended.", "quantifier": "all reachable states of the two endpoints and the network, all packet sizes, all orders of arrival, all further data, all initial limits and windows", "why_tests_cant": "a statement about what can still happen from every reachable state", "anchors": ["quiche/src/stream/send_buf.rs: SendBuf::retransmit, emit", "quiche/src/stream/recv_buf.rs: RecvBuf::almost_full, update_max_data, autotune_window", "quiche/src/flowcontrol.rs: FlowControl::should_update_max_data"]}
{"id": "C151", "title": "A server that validates addresses creates connections only for clients it reached", "statement": "With address validation on, a server creates a connection only for an Initial packet whose token it sent before, in a Retry packet, to the very address the packet comes from, and the original destination connection ID it then assumes is that of the packet the Retry packet answered. A client that follows the Retry packet is accepted; packets other than Initial packets and unknown versions create nothing; and a Retry packet answers only a packet without a token.", "quantifier": "all histories of packets from any addresses with any tokens whose tag was not forged, all connection IDs, all keyed hash functions with tags of 32 bytes", "why_tests_cant": "needs a token made for one address and presented from another, of another family, with connection IDs chosen so that the octets line up", "anchors": ["tokio-quiche/src/quic/addr_validation_token.rs: AddrValidationTokenManager::gen, validate_and_extract_original_dcid", "tokio-quiche/src/quic/router/acceptor.rs: ConnectionAcceptor::handle_initials, stateless_retry, accept_conn"]}
{"id": "C152", "title": "Datagrams reach the connection they are for", "statement": "A datagram that carries a connection ID of a running connection (one it issued and that was not retired, or the one its client chose, until the handshake is complete) is never given to another connection; it is given to its own from the moment the router has worked off the commands that were waiting when the ID was issued, and from then on for as long as the connection has the ID; a new connection is reachable at once; and nothing leads to a connection that is over, once its commands are worked off.", "quantifier": "all histories of connections that start, issue, retire and forget IDs, complete their handshake and end, interleaved in any way with the router's work on the queue of commands; all IDs, all datagrams", "why_tests_cant": "all interleavings of any number of connections with the router; the failing cases need an Initial packet between two steps of the router, or two connections in one receive batch", "anchors": ["tokio-quiche/src/quic/router/mod.rs: InboundPacketRouter::on_incoming, spawn_new_connection, poll_conn_map_commands, short_dcid", "tokio-quiche/src/quic/connection/map.rs: ConnectionMap, CidOwned", "tokio-quiche/src/quic/io/worker.rs: fill_available_scids, refresh_connection_ids, on_conn_established, close_connection"]}
{"id": "C153", "title": "Packets handed over together leave as they were made", "statement": "When the worker of a connection collects packets in one buffer for segmentation offload, the datagrams that leave are exactly the packets the connection made, in order and whole, all to the destination the connection wanted for each of them; never more than 64 datagrams or 65507 bytes at a time, and one packet if offload is off. And when the worker goes to sleep, the connection has nothing more to send on any of its paths; an error is reported only for a path the connection has.", "quantifier": "all connections (as any state machine that keeps the promises of the send call), all buffer sizes, send quanta, release times and numbers of paths, from every state of the worker", "why_tests_cant": "needs packet sizes of all kinds in every order, and several paths; a wrong segment size shows only when packets of different sizes meet in one buffer", "anchors": ["tokio-quiche/src/quic/io/worker.rs: gather_data_from_quiche_conn, select_path, write_packet_to_buffer, flush_buffer_to_socket", "tokio-quiche/src/quic/io/gso.rs: tune_max_send_size, send_to"]}
{"id": "C154", "title": "A shared pool of buffers keeps its limits and gives out clean buffers", "statement": "Whatever several threads do with a pool at the same time, it never stores more buffers than its limit nor more memory than that many buffers of the size to keep; a buffer that is taken from it is empty, whatever its last user left in it; the numbers reported (buffers stored, memory stored, buffers in use) never go below what is there, never become negative, and are exact when no thread is in the middle of an operation. A buffer that is given back is kept if there is room for it.", "quantifier": "all numbers of shards, limits and sizes; all interleavings of the atomic steps of any number of threads that take, use, give back and keep buffers", "why_tests_cant": "counts, gauges and the queue are changed in separate atomic steps; only some of the interleavings show a wrong order, and tests do not choose them", "anchors": ["buffer-pool/src/lib.rs: Pool::new, get, get_empty, from_owned, Pooled::drop, into_inner, Reuse for Vec<u8>"]}
{"id": "C155", "title": "Buffers with a read position", "statement": "A datagram buffer is at all times a string of readable bytes with some room before them: truncating keeps the first bytes, advancing drops bytes and adds them to the room (and panics past the end), a prefix is put before the bytes if there is room and refused otherwise, making headroom never changes the bytes, and the buffer can always be read and taken apart. For the buffers of the pool the reported total memory is the sum of their capacities, which are enough for what they hold; expanding one makes the given number of bytes readable.", "quantifier": "all ways to create a buffer, all sequences of calls with all arguments, builds with and without overflow checks; all numbers of pool buffers and capacities the allocator may give", "why_tests_cant": "needs sequences in which headroom, truncation and prefixes meet, and arguments near the largest machine number", "anchors": ["datagram-socket/src/buffer.rs: DgramBuffer", "buffer-pool/src/buffer.rs: ConsumeBuffer, update_metrics_after_resize"]}
{"id": "C156", "title": "HTTP/3 datagrams find their flow", "statement": "A datagram that is sent for a flow arrives as a datagram of that flow with the same bytes, whatever room its buffer had. What the application receives on a channel are datagrams that arrived for the flow the channel was announced for, in order and at most once; each is put there as long as the channel is not full and has not been dropped. A request that opens a flow has it until its stream ends, an extended CONNECT the one of its stream, other methods none. When all streams have ended there are no flows left. No request makes sending panic.", "quantifier": "all datagrams, buffers and flow numbers; all headers of requests; all sequences of requests, datagrams, ends of streams, shutdowns and reads", "why_tests_cant": "needs datagrams of several flows mixed with the ends of streams, and header values that clients choose", "anchors": ["tokio-quiche/src/http3/driver/datagram.rs: extract_quarter_stream_id, h3_dgram_add_quarter_stream_id, h3_dgram_remove_quarter_stream_id", "tokio-quiche/src/http3/driver/mod.rs: get_or_insert_flow, process_available_dgrams, dgram_ready, cleanup_stream, close_if_idle", "tokio-quiche/src/http3/driver/server.rs: handle_request"]}
{"id": "C157", "title": "The delivery rate is backed by acknowledgements", "statement": "The delivery rate reported for a path changes only when packets are newly acknowledged. The new value is then the number of bytes acknowledged since the newest of these packets was sent, over the time since the last acknowledgement before it was sent (or since sending was resumed with nothing in flight), or over the time it took to send if that is longer; so there is an instant at least a round trip ago since which bytes have been acknowledged at this rate or more. Intervals shorter than the least round trip give no new value. Packets sent after the application had too little to send never lower the rate, and packets are marked so until one sent after that is acknowledged. Nothing panics.", "quantifier": "all sequences of packets sent, lost and acknowledged in any order and at any times, all sizes, round trips and states of the application", "why_tests_cant": "needs acknowledgements that arrive out of order in relation to those of other packets, and numbers of several packet number spaces", "anchors": ["quiche/src/recovery/congestion/delivery_rate.rs: on_packet_sent, update_rate_sample, generate_rate_sample, update_app_limited", "quiche/src/recovery/congestion/mod.rs: on_packet_sent, on_packets_acked", "quiche/src/path.rs: PathStats::delivery_rate"]}
{"id": "C158", "title": "What the application sends on a stream goes out as given", "statement": "The frames an application gives the HTTP/3 driver of tokio-quiche for a stream (headers, pieces of a body, trailers) are handed to quiche in that order, each byte once, however often quiche has no room; the first headers as the response and later ones as additional headers. FIN is sent only if the application asked for it, once, and nothing follows it. While the direction is open nothing is lost: what is not written is kept. Whenever the driver rests it holds a frame quiche had no room for, or is waiting for the application (or all is written and the stream is kept for a flow of datagrams); and if quiche accepts what it is given, everything is written. A stream is cancelled with RESET_STREAM by the driver exactly when the application drops its end without ending the body, and only after all it gave was written.", "quantifier": "all frames, all answers of quiche (partial writes, no room, STOP_SENDING, errors), all interleavings of the application with the driver and of the two directions", "why_tests_cant": "depends on which answer meets which interleaving of two tasks; a lost wake-up shows as a stream that hangs", "anchors": ["tokio-quiche/src/http3/driver/mod.rs: process_write_frame, process_writable_stream, on_fin_sent, upstream_read_ready, cleanup_stream, shutdown_stream", "tokio-quiche/src/http3/driver/streams.rs: StreamCtx", "tokio-quiche/src/http3/driver/server.rs: handle_request", "tokio-quiche/src/http3/driver/client.rs: initiate_request"]}
{"id": "C159", "title": "What the peer sends on a stream reaches the application as received", "statement": "The pieces of a body that quiche gives the HTTP/3 driver reach the application in order and once, never more than the capacity of the channel ahead of it. The end of the body is told at most once, last, and only if quiche said that the peer ended the stream; it is told whenever the peer ended the stream and the application keeps its end. After RESET_STREAM nothing more is told. STOP_SENDING is sent by the driver only if the application dropped its end before the end of the body. A stream whose directions are both done is forgotten. What a peer sends on a stream of its own never ends the connection with an error, and a stream is announced to the application once.", "quantifier": "all answers of quiche, all interleavings of the application with the driver and of the two directions", "why_tests_cant": "the end is lost only if the channel is full when the peer's FIN is seen and the response ends before the application reads on", "anchors": ["tokio-quiche/src/http3/driver/mod.rs: process_h3_data, process_h3_fin, process_read_event, upstream_write_ready, cleanup_stream, shutdown_stream", "tokio-quiche/src/http3/driver/streams.rs: StreamCtx", "tokio-quiche/src/http3/driver/server.rs: handle_request"]}
{"id": "C160", "title": "Packets and datagrams keep to their sizes", "statement": "No packet is larger than the buffer it is written to, and no datagram larger than the buffer, the maximum UDP payload, the peer's max_udp_payload_size, or what an unvalidated client may still be sent; with path MTU discovery a datagram that is no probe is not larger than the MTU found so far, and a probe has exactly the size probed. A packet that elicits an acknowledgement or is padded is not larger than what the congestion window has available; an ACK that is due goes out whatever the window, and alone does not count against it. Every packet has at least four bytes of payload. A datagram with an Initial packet has 1200 bytes if its limit allows; nothing, not even padding, follows a 1-RTT packet; PTO probes are not coalesced. If there is a frame for which buffer, MTU and window have room, something is sent; a DATAGRAM of at most `dgram_max_writable_len` bytes can be sent. No subtraction of sizes underflows.", "quantifier": "all header, packet number and frame lengths, windows, buffers, MTUs, any frames wanted, any number of coalesced packets", "why_tests_cant": "the failures need particular byte counts (one to three bytes left in the window) or a combination of coalescing with a full window or a running MTU probe", "anchors": ["quiche/src/lib.rs: send_on_path, send_single, max_send_udp_payload_size, dgram_max_writable_len, process_peer_transport_params", "quiche/src/path.rs: should_send_pmtu_probe"]}
{"id": "C161", "title": "Path MTU discovery with several paths", "statement": "With any number of paths, the MTU used on a path is 1200 or not larger than a probe that was delivered on this very path. Discovery on each path goes as if the path were alone: it waits only for a probe that is on its way on this path, of which there is at most one, so discovery on a path over which packets get through ends with the size found.", "quantifier": "any number of paths, any MTUs, all interleavings of sending, fates of probes, changes of the active path and revalidation", "why_tests_cant": "tests of MTU discovery use one path; the failure needs a packet sent on a path that is not active at the moment when a probe is due, and its effect is only that discovery never ends", "anchors": ["quiche/src/lib.rs: send_single, process_frame, revalidate_pmtu", "quiche/src/pmtud.rs", "quiche/src/path.rs: should_send_pmtu_probe"]}
{"id": "C162", "title": "The bandwidth estimate of a connection and the gauge of all", "statement": "The gauge of utilized bandwidth is at all times the sum of the latest estimates of the connections that exist, and zero when none is left. Updating the estimate never panics while time and counters do not go back; the rounds of a connection are consecutive and account for all its bytes. There is no estimate before the fifth round; then it is the largest of the samples of the last two minutes, up to the window filter, and the largest value ever contributed is what is recorded for the connection. No sample is above the rate at which the connection sent or had bytes acknowledged.", "quantifier": "any number of connections, all interleavings of their updates and ends, all byte counts, times and RTTs", "why_tests_cant": "the error of a ninth needs eleven rounds at a steady rate, and the only test stops at the tenth; the gauge is wrong only for sums over many connections", "anchors": ["tokio-quiche/src/quic/io/utilization_estimator.rs"]}
{"id": "C163", "title": "A buffer with a cursor is a tape", "statement": "Any calls of the buffer type of the octets crate, one after another, do what moving a head over a tape does: a read returns the bytes right of the cursor (as a number in network order, a variable-length integer, or bytes) and moves over exactly these, a write replaces exactly the bytes it moves over, peeking and slicing move nothing, skip and rewind only move. A call for which there are not enough bytes fails and changes nothing, except that a read with a length in front has moved over the length. The length of the buffer never changes, no byte outside the range written changes, and no call panics if variable-length integers are below 2^62 and fit the length asked for.", "quantifier": "all buffers, cursor positions, and sequences of calls with any arguments", "why_tests_cant": "tests call each function at a few positions; the unchecked copies of bytes rely on offsets that any earlier sequence of calls has left", "anchors": ["octets/src/lib.rs"]}
{"id": "C164", "title": "The killswitch gets every task", "statement": "However the threads spawning tasks, the tasks, and the use of the switch are interleaved: when the signal comes that all tasks were killed, each task whose spawning has returned has finished or was told to abort, and each spawning that returns later aborts its task unless that has finished already. Spawning begun after the switch was used starts no task. No task is told to abort and no signal comes before the switch is used. Until then the switch knows exactly the tasks that were spawned and have not finished. If the switch is used at most once, nothing panics.", "quantifier": "all interleavings of any number of spawning threads, tasks (that finish, panic or are dropped at any time) and the killing thread, for any division of the tasks into shards", "why_tests_cant": "the windows between checking the flag, spawning, registering and clearing a shard are a few instructions wide; tests hit one order of them", "anchors": ["task-killswitch/src/lib.rs"]}
{"id": "C165", "title": "Datagrams and streams take turns, and datagrams arrive at most once", "statement": "On the active path, a packet after one with DATAGRAM frames carries stream data if a stream can send and there is room, and a packet after one without DATAGRAM frames carries the next datagram if it fits; a packet with room for what waits is not left empty. So neither starves the other. Over any network, the receiving application gets only datagrams that were handed over for sending, none more often than that, and in the same order if the network keeps the order. When the receive queue is full the oldest datagrams give way, and packets with datagrams are acknowledged all the same.", "quantifier": "all sequences of packets and of calls of both applications, any loss, delay and reordering of packets, any sizes and queue lengths", "why_tests_cant": "tests send a few datagrams beside one stream; who is starved depends on the order of packets of all kinds, and delivery on the order in which the network hands them over", "anchors": ["quiche/src/lib.rs", "quiche/src/dgram.rs"]}
{"id": "C166", "title": "A resumed session serves until the handshake and no longer", "statement": "What the session of one connection contains is read back by the next: it is accepted exactly if it is a session TLS takes followed by valid transport parameters, each with its length before it, and then the limits for early data are those the server gave. A session that is refused changes no limit, and no bytes make the client panic. Once the parameters of the new handshake are known, all limits are those a connection without the session would have. Values a client must not remember (acknowledgement delay and its exponent, stateless reset token) are not used from the session.", "quantifier": "all session bytes, all transport parameters, all later sequences of packets, parameters and frames", "why_tests_cant": "tests resume with parameters that did not change and a session that was just stored; differences show only with others", "anchors": ["quiche/src/lib.rs", "quiche/src/tls/mod.rs", "quiche/src/transport_params.rs", "quiche/src/stream/mod.rs"]}
{"id": "C167", "title": "A stateless reset ends a connection exactly if its token is current", "statement": "A datagram that a client cannot process ends the connection exactly if it has at least 21 bytes and its last 16 are the stateless reset token of one of the server's connection IDs that are not retired. Nobody who knows no token can end the connection.", "quantifier": "all sequences of packets, Retry packets, transport parameters, new and retired connection IDs, resumed sessions and undecryptable datagrams", "why_tests_cant": "tests send one reset with the token of the first connection ID; what counts is which tokens are current after any history", "anchors": ["quiche/src/lib.rs", "quiche/src/cid.rs", "quiche/src/transport_params.rs"]}
{"id": "C168", "title": "HyStart++ goes by what was measured", "statement": "With HyStart++, conservative slow start begins exactly when at least eight delays were measured in a round and all of them exceed the least of the round before by an eighth of it, at least 4 ms and at most 16 ms; delays that vary by less than 4 ms never cause it. It goes back to slow start only when a delay is shorter than all of the round in which it began. Slow start is over exactly when the fifth round in conservative slow start since its beginning ends.", "quantifier": "all sequences of sent packets, acknowledgements with any delays, and losses", "why_tests_cant": "tests run one rise of the delay with one acknowledgement per packet and no loss before", "anchors": ["quiche/src/recovery/congestion/hystart.rs", "quiche/src/recovery/congestion/reno.rs", "quiche/src/recovery/congestion/cubic.rs"]}
{"id": "C169", "title": "A qlog file reads back as what was logged", "statement": "What the qlog reader returns from a file is the header and exactly the events whose logging call succeeded, in order. A call succeeds exactly if the log was started and not finished, the event's importance is within the log's level, and the writer takes all of its record; a log that is not open, or an event that is too detailed, changes nothing in the file. This holds for any event contents, pretty-printed or not, for a writer that never fails, and for one that stops taking bytes anywhere in a record.", "quantifier": "all sequences of calls, events, log levels and points at which the writer fails", "why_tests_cant": "tests write a few events into a buffer that never fails and compare the text", "anchors": ["qlog/src/streamer.rs", "qlog/src/reader.rs", "qlog/src/events/mod.rs"]}
{"id": "C170", "title": "The time with bytes in flight is what it says", "statement": "The time with bytes in flight that a connection reports is the total length of the times at which some bytes were on their way, up to the last packet sent, acknowledged, lost or discarded. It never becomes less and is at most the time since the first packet. The recovery of a path may be made anew, as when a callback of the handshake changes the congestion control, exactly as long as no packet that counts as in flight was sent.", "quantifier": "all sequences of packets sent, acknowledged, lost and discarded, with times that do not go back", "why_tests_cant": "tests run two intervals with fixed numbers", "anchors": ["quiche/src/recovery/bytes_in_flight.rs", "quiche/src/path.rs"]}
{"id": "C171", "title": "Jumps of the round-trip time are counted when they last, and once", "statement": "With BBR, the detector that goes by the least delay counts a jump exactly when at least three samples in a row, since the full bandwidth was reached, were above the threshold (three times the least delay before) for at least three times the least delay, and once for each such row. The detector with the hidden Markov model counts one only after three samples in a row whose most likely state is persistent, over at least five round-trip times and 80 ms and after the first eight samples, and the next one only after the most likely state was normal for at least a round-trip time and 80 ms.", "quantifier": "all sequences of delay samples at any times", "why_tests_cant": "tests feed a few traces to each detector", "anchors": ["quiche/src/recovery/gcongestion/bbr2/rtt_jump_detector/global_min.rs", "quiche/src/recovery/gcongestion/bbr2/rtt_jump_detector/hmm.rs", "quiche/src/recovery/gcongestion/bbr2/rtt_jump_detector/mod.rs"]}
{"id": "C172", "title": "Packets in one datagram, and 0-RTT packets that come before their key", "statement": "A packet is processed at most once, and only if it opens with the key of its type. Whether a packet of a datagram is processed does not depend on whether those before it could be. 0-RTT packets that come before their key are kept, at most ten, and are processed in the order of their arrival right after the packet that brings the key; none is kept once the handshake is complete or, on an open connection, once the key is known.", "quantifier": "all sequences of datagrams of any packets, calls of send and close", "why_tests_cant": "tests coalesce a few packets in the order of a handshake; the queue is tested with one packet", "anchors": ["quiche/src/lib.rs: Connection::recv, recv_single, process_undecrypted_0rtt_packets, drop_pkt_on_err"]}
{"id": "C173", "title": "A client's connection is handed over once, when it is established", "statement": "The connector that drives the handshake of a client returns at most one result in its life: the connection, if it is established, or an error, if it is closed or cannot send; after that it does nothing. Until then exactly one timer is armed, for the time the connection asks for, or none if it asks for none, and no call panics. The connection has been given exactly the datagrams for its connection ID that came since its start, in order. The start of the handshake that is handed over with it is the time at which the connector sent its first packets.", "quantifier": "all connections, sequences of datagrams and timeouts at any times", "why_tests_cant": "no tests; the races of timers and packets are endless", "anchors": ["tokio-quiche/src/quic/router/connector.rs"]}
{"id": "C174", "title": "Requests of a client are sent once, and the driver keeps to limits", "statement": "Each request made through the HTTP/3 driver of a client is sent on a stream of its own, once, or waits, or is lost with the connection; none is lost while the driver runs. Requests go out in the order they were made, on streams 0, 4, 8 and so on, and one that waits goes out once the peer allows it. The controller is given the headers of the response for each stream once. A request after GOAWAY does not harm the others. A server gives out at most as many requests as it is set to, and closes the connection for that only when another request comes.", "quantifier": "all sequences of requests, retries, headers, limits and ends of streams", "why_tests_cant": "tests block one request once; limits, interim responses and GOAWAY together are not tried", "anchors": ["tokio-quiche/src/http3/driver/client.rs", "tokio-quiche/src/http3/driver/server.rs: headers_received, handle_request", "tokio-quiche/src/http3/settings.rs: enforce_requests_limit", "quiche/src/h3/mod.rs: send_request"]}
{"id": "C175", "title": "The bytes of the handshake reach TLS in order, within bounded memory", "statement": "Whatever CRYPTO frames come, in whatever order, overlapping or repeated, TLS is given at each encryption level exactly the bytes from offset 0 up to the first gap, in order, each as first received; when the frames are pieces of one sequence it gets a beginning of that sequence, and all of it once every byte has come. The buffer neither refuses anything itself nor fails; a connection is closed only because TLS says so or because more is waiting than the limit. At least 4096 bytes may come out of order. The memory kept is bounded by the bytes waiting, and nothing is kept of a level given up.", "quantifier": "all sequences of CRYPTO frames at any level and offset with any payloads, all answers of TLS, all times of dropping levels", "why_tests_cant": "tests send a handshake in order; the ways to cut, overlap and repeat the frames, and long-lived connections with much handshake data, cannot be enumerated", "anchors": ["quiche/src/lib.rs: process_frame (CRYPTO), drop_epoch_state, MAX_CRYPTO_STREAM_OFFSET", "quiche/src/packet.rs: CryptoContext", "quiche/src/stream/recv_buf.rs", "quiche/src/range_buf.rs: split_off"]}
{"id": "C176", "title": "The task that serves a connection: delivery, timers, and the order of callbacks", "statement": "The connection is given the datagrams of the packets passed on by the router, in order, each once, with merged buffers cut at the size given; until the work ends none is lost. However much there is to send, at most 127 packets and two batches go out between two looks at the incoming queue. When the task sleeps, its timer is set no later than the connection's timeout, the time the pacer lets packets go and the end of the time for the handshake, and a timer that has run out is served before anything else. A handshake that is not done in its time is given up at the next wake with a timeout, and not before. The application is told of the connection once, after the handshake is complete; it is called to read and write only after that, and has looked for what was received before the task sends or sleeps; at the end it is given the result of the work, and nothing follows.", "quantifier": "all connections and applications (any state space, any answers), all sequences of arriving packets, passing times, wakes and steps of the task, all handshake deadlines", "why_tests_cant": "the loop interleaves three wake sources with pacing, batches and two stages; tests run a few real connections and cannot vary the interleaving or the answers of the connection", "anchors": ["tokio-quiche/src/quic/io/worker.rs: work_loop, process_incoming, wait_for_data_or_handshake, wait_for_quiche, run, on_conn_established, close", "tokio-quiche/src/quic/io/connection_stage.rs", "tokio-quiche/src/quic/connection/mod.rs: HandshakeInfo, ApplicationOverQuic"]}
{"id": "C177", "title": "The frame parser of h3i reports every frame of a stream, however the bytes come", "statement": "However the bytes of a response stream arrive and however often the parser is called, the frames it reports are exactly the frames with which the stream begins, in order, each with its type and its payload; when it answers that there is nothing to read, every complete frame has been reported, so that the frames reported do not depend on how the bytes were cut into packets. A frame is marked as the last one exactly when the end of the stream has arrived and lies behind it; the stream is said to have ended within a frame only when that is so; the end of a stream is always reported. A loop that calls until the answer is neither a frame nor a request to call again makes a bounded number of calls. The parser keeps at most two million bytes, a frame is refused as too large only when it announces more than that and as malformed only when it is, and no bytes of a peer make it panic.", "quantifier": "all sequences of arriving pieces of data (any bytes, any cuts), end of stream, resets and calls of the parser", "why_tests_cant": "the parser keeps its place in one of three states between calls and grows its buffer by the first byte of an integer; the unit tests use whole frames or a few cuts, and never an end of stream at each place", "anchors": ["h3i/src/frame_parser.rs: try_parse_frame, try_fill_buffer, try_consume_varint, state_transition, build_h3i_frame", "h3i/src/client/mod.rs: parse_streams"]}
{"id": "C178", "title": "An HTTP/3 endpoint opens its unidirectional streams as the protocol says", "statement": "After the HTTP/3 layer was attached to a connection without error, whatever the application calls and the peer allows: the first unidirectional stream carries the type of a control stream, then the whole SETTINGS frame, then exactly one whole GOAWAY or PRIORITY_UPDATE frame for each call that was accepted, in order, and is not ended. The QPACK streams carry their type and nothing more, and use the next stream numbers; a stream that could not be begun uses no number, so that the streams on which something was sent have consecutive numbers. At most one other stream was begun, the last: a reserved type and a text, ended when all of it was sent, at the lowest priority, while the others have the highest. A call that fails changes nothing; only a client sends PRIORITY_UPDATE, and only for request streams. If attaching fails, the connection is closed with the code of the error, unless it is a client's that is not ready yet; the reasons are no credit for streams or data, documented as an internal error, or settings that cannot be encoded.", "quantifier": "all configurations, limits of the peer at the start, and sequences of calls (GOAWAY, PRIORITY_UPDATE) and changes of credit, with streams stopped by the peer", "why_tests_cant": "the tests attach the HTTP/3 layer with plenty of credit; how much of each write was accepted is ignored in several places, which shows only for particular small limits", "anchors": ["quiche/src/h3/mod.rs: with_transport, open_uni_stream, send_settings, open_qpack_encoder_stream, open_qpack_decoder_stream, open_grease_stream, send_priority_update_for_request, send_goaway"]}
{"id": "C179", "title": "What is announced in the handshake is what the endpoint does", "statement": "Settings may be made in callbacks of the TLS library during the handshake, before any packet is sent. Each takes effect, the last one if it is made several times, and otherwise, as documented, none has any effect. Whatever is set and whenever, the transport parameters written into the handshake are those the connection goes by: the number of streams it accepts and the idle timeout are what the peer is told. A setting never makes the endpoint panic. The parameters of the peer are those the TLS library has first; they are used as soon as they are there, with connection IDs checked, and never change afterwards; packets are never larger than they allow. A server regards the handshake as confirmed, drops the keys for Handshake packets and lets go of buffered 0-RTT packets when the handshake is complete, and once complete it stays complete.", "quantifier": "all sequences of calls of the TLS library with any settings in any order, any result and any parameters of the peer, and of packets in flight in between, first packets, Version Negotiation and changes of the idle timeout", "why_tests_cant": "the settings go through a copy of the configuration that is taken over only on one of the results of the TLS library; the tests set one value in a handshake of one call, without 0-RTT", "anchors": ["quiche/src/lib.rs: do_handshake, set_*_in_handshake, set_transport_parameters_in_hanshake, process_peer_transport_params, parse_peer_transport_params, set_max_idle_timeout", "quiche/src/path.rs: can_reinit_recovery, reinit_recovery, set_discover_pmtu_on_existing_paths", "quiche/src/stream/mod.rs: set_max_streams_bidi"]}
{"id": "C180", "title": "The application protocol is one that both sides have, and what the TLS library says goes where it belongs", "statement": "The application protocol of a connection is one that both the client and the server were configured with; something is chosen if they have anything in common, by the client's order, and otherwise the handshake fails, whatever list of protocols arrives. A configuration takes exactly the lists that have a wire format; given in wire format or by name, a list means the same; a list that is refused leaves the configuration as it was. Every packet protection key is derived from a secret that TLS gave for packets of that kind, with the algorithm TLS negotiated: 0-RTT packets are opened by servers only and sealed by clients only. Handshake bytes are sent in packets of the kind TLS names, in order and complete. A failed handshake closes the connection, with the TLS alert as error code 0x100 + alert if there is one, and the first error stays.", "quantifier": "all lists of protocols on both sides including malformed ones, and all sequences of callbacks and results of the TLS library and of closing the connection", "why_tests_cant": "the tests use short well-formed lists and the callbacks that BoringSSL makes in a handful of handshakes; names of more than 255 bytes and lists that break off are not tried", "anchors": ["quiche/src/lib.rs: set_application_protos, set_application_protos_wire_format, close", "quiche/src/tls/mod.rs: set_alpn, select_alpn, set_read_secret, set_write_secret, add_handshake_data, send_alert, keylog, set_transport_error, map_result_ssl, get_cipher_from_ptr"]}
{"id": "C181", "title": "Both endpoints derive the keys of RFC 9001, and every packet can be sealed", "statement": "From a secret and a cipher suite an endpoint derives the packet key, the IV and the header protection key of RFC 9001; the keys of Initial packets follow from the client's destination connection ID, so that a server opens what a client seals and the other way round, also after Retry and Version Negotiation; after any number of key updates both sides still have the same keys, and header protection keeps its key. Distinct purposes never use the same HKDF input. Packet numbers grow through the whole connection, and every packet that is to be sent can be sealed: the AEAD, which requires nonces to grow from that of packet 0, never refuses one. A CONNECTION_CLOSE is sent.", "quantifier": "all secrets, connection IDs, cipher suites, HKDF functions and numbers of key updates; all sequences of installing and replacing keys, sending packets with any of them, closing, and leaving out packet numbers", "why_tests_cant": "the tests compare with the test vectors of the RFC; that no nonce is refused depends on the order in which packets of all kinds are sent, and the tests always have the server send its first flight before it closes", "anchors": ["quiche/src/crypto/mod.rs: derive_initial_key_material, hkdf_expand_label, derive_hdr_key, derive_pkt_key, derive_pkt_iv, derive_next_secret, derive_next_packet_key, make_nonce", "quiche/src/crypto/boringssl.rs: PacketKey::from_secret, seal_with_u64_counter", "quiche/src/lib.rs: send_single, write_pkt_type"]}
{"id": "C182", "title": "What a C program sees is what the library reported", "statement": "Through the C interface every error has the code that quiche.h gives it; codes are negative, distinct for distinct errors, and an error of the transport is never taken for one of HTTP/3. A return value at or above zero is the number of bytes, or the stream ID, that the library reported, and a negative one names its error. Values behind pointers are written exactly when documented: the end of a stream only with data, the code of the peer only for a stopped or reset stream, a sequence number only on success. Packet headers are reported if and only if all parts fit in the caller's buffers. Addresses are written in network byte order and read back as the same address. Timeouts tell how long to wait. Callbacks are called in order until the first that returns something other than zero. The statistics of a path are all reported. Variable-length integers below 2^62 are written when they fit and read back.", "quantifier": "all results of the library, all errors, all buffer lengths and prior contents of the memory behind pointers, all addresses, timeouts, callbacks with any state, and integers", "why_tests_cant": "the tests of the C interface are three conversions of addresses; the header file is not checked against the Rust declarations by any compiler", "anchors": ["quiche/src/ffi.rs: quiche_conn_stream_recv, quiche_conn_stream_send, quiche_header_info, quiche_conn_timeout_as_millis, quiche_conn_path_stats, quiche_socket_addr_iter_next, std_addr_to_c, std_addr_from_c, quiche_put_varint", "quiche/src/h3/ffi.rs: quiche_h3_for_each_setting, quiche_h3_event_for_each_header", "quiche/src/error.rs: to_c", "quiche/src/h3/mod.rs: to_c", "quiche/include/quiche.h"]}
{"id": "C183", "title": "Batches of datagrams are the datagrams, in order, and the reader is woken", "statement": "Receiving into a list of buffers fills the first of them with the datagrams that are waiting, in order, as many as there are before the first pending error and as there are buffers; the other buffers are untouched, the number reported is the number received, and nothing else is taken from the socket. With nothing waiting, the pending error or \"would block\" is reported. In every sequence of arrivals and calls, a call has to wait if and only if nothing is there. Sending a list sends its first datagrams, in order, up to the first one that the socket refuses, attempts none after it, and reports how many were sent; the portable loop does the same as the batched call on both sides.", "quantifier": "all lists of buffers with any room and contents, all queues of datagrams and errors, all outcomes of attempts to send, all sequences of arrivals and calls", "why_tests_cant": "the tests send and receive a few dozen datagrams over a socket that never fails; errors between datagrams at chunk boundaries and stale errno values do not occur there", "anchors": ["datagram-socket/src/mmsg.rs: poll_recvmmsg, poll_sendmmsg, recvmmsg, sendmmsg", "datagram-socket/src/datagram.rs: DatagramSocketSend::poll_send_many, DatagramSocketRecv::poll_recv_many, poll_recv_datagrams"]}
{"id": "C184", "title": "Priorities mean what RFC 9218 says, from the sender to the scheduler", "statement": "A priority field value is read as RFC 9218 defines: urgency 0 to 7 from `u`, the flag from `i`, defaults for what is left out, other members ignored, the last of several counts; wrong values are refused as documented. The value that a client sends for a request is read by a server as the same priority with the urgency brought into range. A server's application gets the last update of a stream, and one event for all updates before it takes the value. Responses are scheduled in the order of their urgencies, after the control streams and before reserved streams, and the default urgency is that of a stream without one.", "quantifier": "all dictionaries that a field value can parse to, all priorities, all sequences of updates and takes, all pairs of responses", "why_tests_cant": "the tests try about twenty field values and two or three updates", "anchors": ["quiche/src/h3/mod.rs: Priority::try_from, Connection::send_priority_update_for_request, send_response_with_priority, send_additional_headers_with_priority, take_last_priority_update", "quiche/src/h3/stream.rs: set_last_priority_update, take_last_priority_update"]}
{"id": "C185", "title": "During recovery, sending is proportional to what is delivered", "statement": "With CUBIC, during recovery (RFC 6937): while more than the slow start threshold is in flight, the bytes allowed since the start of recovery are the bytes delivered times the threshold over the bytes in flight at the start, rounded up, so that when a whole flight has been delivered exactly the threshold may have been sent; with less in flight, the allowance brings the bytes in flight at most to the threshold and is never zero; in both cases no more is sent than was delivered, but for one datagram per acknowledgement while catching up. Outside recovery there is no such allowance.", "quantifier": "all sequences of acknowledgements with any number of bytes delivered and in flight and of packets within the allowance; all thresholds and datagram sizes", "why_tests_cant": "the tests look at single acknowledgements; the bound is on the sum over a whole recovery", "anchors": ["quiche/src/recovery/congestion/prr.rs: PRR", "quiche/src/recovery/congestion/cubic.rs: on_packet_acked, congestion_event", "quiche/src/recovery/congestion/recovery.rs: cwnd_available"]}
{"id": "C186", "title": "A server's time limit for the first request", "statement": "If an HTTP/3 server is set to a time for the first request, then a connection on which no request came within that time of the start of its handshake is closed with H3_NO_ERROR and the controller is told of the timeout; not before that time, and not if a request came. Setting and clearing the timer never panics.", "quantifier": "all settings of time and request limit, all times of the end of the handshake, all sequences of requests, ends of streams, closes and wakes of the connection's task", "why_tests_cant": "one test waits for the timeout on an idle connection; slow handshakes, busy peers and races with the first request are not tried", "anchors": ["tokio-quiche/src/http3/settings.rs: Http3SettingsEnforcer", "tokio-quiche/src/http3/driver/server.rs: conn_established, headers_received, wait_for_action", "tokio-quiche/src/http3/driver/mod.rs: wait_for_data, on_conn_close", "tokio-quiche/src/quic/io/worker.rs: work_loop, run"]}
{"id": "C187", "title": "Reserved identifiers and unknown transport parameters", "statement": "For every unknown transport parameter of the peer, the application is told correctly whether its identifier is reserved (31*N+27). The unknown parameters kept are among those received, in order, within the size allowed, and all of them if they fit. A configuration can be made for version 1 and for versions reserved to force negotiation (0x?a?a?a?a), and for no other.", "quantifier": "all identifiers, all lists of parameters and sizes, all 32-bit versions", "why_tests_cant": "tests use a few identifiers above 27 and one reserved version; the domains are 2^62 and 2^32", "anchors": ["quiche/src/transport_params.rs: UnknownTransportParameter, UnknownTransportParameters", "quiche/src/lib.rs: is_reserved_version, Config::with_tls_ctx", "quiche/src/packet.rs: Header::from_bytes"]}
{"id": "C188", "title": "Counters of packets and bytes", "statement": "With Reno and CUBIC, whatever is sent, acknowledged and declared lost on whatever paths, the statistics of a connection count the packets and bytes sent, and the packets (other than probes for the path MTU) and bytes declared lost. No more packets are acknowledged and declared lost, together, than were sent; no more bytes are acknowledged, lost and in flight, together, than were sent; no more packets are reported as lost by mistake than were declared lost. As long as no path was removed, the counters of the connection are the sums of those of its paths.", "quantifier": "all sequences of adding and removing paths and of packets sent, ACK frames, timeouts, discarded keys and path changes, any congestion controller", "why_tests_cant": "tests compare counters after one or two losses on one path; the claims are over all histories", "anchors": ["quiche/src/lib.rs: Connection::stats, Connection::path_stats", "quiche/src/path.rs: Path::stats", "quiche/src/recovery/congestion/recovery.rs: detect_and_remove_acked_packets, detect_lost_packets, on_ack_received, bytes_lost"]}
{"id": "C189", "title": "What the system says about a received datagram reaches the connection", "statement": "On Linux, a server passes on what the system says about a received message as it was said, for hosts of either byte order: the address it was sent to, the size of the datagrams put together in it, the mark of the socket, the number of datagrams dropped. The messages that say so fit into the space provided, whatever socket options are on. A reply leaves from the address the datagram was sent to. A datagram sent to the server's own address is recognised as such.", "quantifier": "all sequences of control messages, all addresses, both byte orders, all counts of drops, all sets of socket options", "why_tests_cant": "tests run on little-endian hosts with global addresses and few options; truncation needs all options, a drop and a coalesced batch at once", "anchors": ["tokio-quiche/src/quic/router/mod.rs: poll_recv_and_rx_time, resolve_dst_addr, reusable_cmsg_space", "tokio-quiche/src/quic/io/gso.rs: PktInfo", "tokio-quiche/src/socket/capabilities.rs: apply_all_and_get_compatibility"]}
{"id": "C190", "title": "A stream reported as finished or closed stays so", "statement": "Once the application is told that all data of a stream has been read, this is so for good: the answer never goes back, no read returns further bytes, and while the stream exists the peer has indeed sent its end or a reset. Once it is told that a stream is closed, that never goes back either, and no further bytes are accepted for it; a stream that was never opened is not reported as closed. A stream on which nothing can arrive is reported as finished.", "quantifier": "all configurations, all histories of frames, acknowledgements, losses and application calls before and after, all stream IDs, as long as the connection is not closed by an error", "why_tests_cant": "tests ask once, after a simple exchange; the answer must survive duplicates, late resets, shutdowns in both directions, losses and collection in every order", "anchors": ["quiche/src/lib.rs: stream_finished, stream_closed", "quiche/src/stream/mod.rs: StreamMap::is_collected", "quiche/src/stream/recv_buf.rs: is_fin", "quiche/src/stream/send_buf.rs: is_fin"]}
{"id": "C191", "title": "Datagrams go out on the path asked for, and probing one path does not hold up the others", "statement": "A datagram goes out on a path that has every address the caller named. The list of destinations for a local address names, once each, exactly the paths with that address that have a destination connection ID and are active, validated or to be probed, and a call that names a listed pair uses that path; so a loop over the lists misses no path that a call without addresses would use. A call without addresses prefers a path to be probed and otherwise takes the active one, and it sends something whenever the active path can.", "quantifier": "all connections, client or server, all histories of datagrams, timeouts, probes, migrations and connection ID changes, all addresses, all packets offered", "why_tests_cant": "tests probe one path at a time with full-size datagrams; the choice matters when several paths compete, some without credit or after a failed validation", "anchors": ["quiche/src/lib.rs: get_send_path_id, send_on_path, paths_iter, probe_path", "quiche/src/path.rs: probing_required, usable, on_loss_detection_timeout"]}
{"id": "C192", "title": "An acknowledgement is asked of the peer when it is needed", "statement": "After the application has asked for an ack-eliciting packet, on the active path or on a named one, the next call that sends for it with room for one more byte yields a packet that elicits an acknowledgement; until then the request is not forgotten, whatever else is sent or happens, and a probe of the path MTU does not count. After a probe timeout the next packet elicits one whatever the congestion window. Of any 25 packets in a row on a path, at least one elicits one. A PING that is no probe keeps to the congestion window.", "quantifier": "all connections with any number of paths, all sequences of requests, migrations, probe timeouts and calls, all frames waiting and lengths of acknowledgements", "why_tests_cant": "tests send one PING on an idle connection; rows of pure acknowledgements with full windows, probes of the path MTU and changes of path in between are not tried", "anchors": ["quiche/src/lib.rs: send_ack_eliciting, send_ack_eliciting_on_path, write_pkt_type, send_single", "quiche/src/recovery/congestion/recovery.rs: should_elicit_ack, ping_sent, on_packet_sent, cwnd_available", "quiche/src/recovery/gcongestion/recovery.rs: should_elicit_ack, ping_sent"]}
{"id": "C193", "title": "Random numbers below a bound are uniform", "statement": "A random number below a bound is below it, and no number is preferred: each is given by equally many of the 2^64 words that may be drawn, and however many words are drawn, exchanging words one to one exchanges any two numbers and leaves the others. At most half of the words are rejected, and one accepted word ends the search; only the bound 0 panics. The distance to the next packet number left out lies between 20 packets plus half a congestion window and 20 packets plus two windows, and every such distance occurs. The identifiers sent as HTTP/3 grease are reserved ones that can be encoded, and every such identifier occurs.", "quantifier": "all bounds up to 2^64 - 1, all sequences of words drawn of any length, all windows and datagram sizes", "why_tests_cant": "a bias of one word in 2^64, or a single identifier that is never drawn, cannot be seen by sampling", "anchors": ["quiche/src/rand.rs: rand_u64_uniform", "quiche/src/packet.rs: PktNumManager::arm_skip_counter", "quiche/src/h3/mod.rs: grease_value"]}
{"id": "C194", "title": "The totals over streams drawn from a qlog are right", "statement": "For data read, written and dropped and for stream limits sent and received, the total that qlog-dancer draws is the sum over the streams of the highest position of each, in whatever order the events come; the curve has one point per event, never falls and ends at the total; each event is kept with its stream, and the first limit of a stream comes after a point for the stream's initial limit; an update tells the rise of the maximum of its stream, if any. The totals of data moved are the bytes moved. A log whose values add up to less than 2^64 is read without a panic, and the report on MAX_DATA says the first and the last limit, or that there is none.", "quantifier": "all logs of any length, with all streams, offsets, lengths, limits and recipients", "why_tests_cant": "the tests of the trackers feed a few updates by hand; no test feeds shutdowns of streams with data unsent, or logs that lack MAX_DATA", "anchors": ["qlog-dancer/src/trackers/stream_max_tracker.rs: StreamMaxTracker::update", "qlog-dancer/src/trackers/stream_buffer_tracker.rs: StreamBufferTracker::update", "qlog-dancer/src/datastore.rs: consume_qlog_stream_data_moved, consume_qlog_transport_parameters_set", "qlog-dancer/src/reports/text.rs: print_rx_max_data_frames, print_tx_max_data_frames"]}
{"id": "C195", "title": "The example server sends packets as they were made, and serves all connections", "statement": "In its turn a connection's packets leave one per datagram, unchanged, in order, each to its destination, until the socket would block; those made and not sent are sent later. A turn sends no more than the connection's send quantum and the burst the server allows it, which is never below ten datagrams after a reduction and always fits the server's buffer. If a connection has more to send after its turn, there is another round at once. Every connection has a turn in each round.", "quantifier": "all numbers of connections, packets of all sizes and destinations, all quanta, losses and points at which the socket blocks", "why_tests_cant": "the server is run against one well-behaved client at a time; several paths or probes of the path MTU in one burst, a full socket and several busy clients do not come up", "anchors": ["apps/src/bin/quiche-server.rs: main (sending)", "apps/src/sendto.rs: send_to"]}
{"id": "C196", "title": "The example server reads only below its root and answers every request", "statement": "Whatever path a client asks for, over HTTP/3 or HTTP/0.9, the file that is read is named by the root followed by plain names: no part goes up. What is read is what is sent, what cannot be read is not found, and a path that ends in a slash stands for the index in that directory. Requests with a required field missing, empty or given twice are rejected as malformed, methods other than GET are not allowed, and no request makes the server panic.", "quantifier": "all roots, index names, paths, requests with all fields in any order and number, all contents of the file system", "why_tests_cant": "the server is tried with a few well-formed requests; paths with dots and slashes in all places and requests that name the host in the other field are not among them", "anchors": ["apps/src/common.rs: build_h3_response", "apps/src/common.rs: autoindex", "apps/src/common.rs: Http09Conn::handle_requests"]}
