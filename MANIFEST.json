{
 "claims": [
  {
   "property": "C01",
   "status": "proved",
   "theorems": [
    "Verif.C01.varint_roundtrip",
    "Verif.C01.put_with_len_roundtrip",
    "Verif.C01.varint_too_large"
   ],
   "note": ""
  },
  {
   "property": "C02",
   "status": "proved",
   "theorems": [
    "Verif.C02.varint_parse_total"
   ],
   "note": ""
  },
  {
   "property": "C03",
   "status": "proved",
   "theorems": [
    "Verif.C03.huffman_roundtrip",
    "Verif.C03.roundtrip_any"
   ],
   "note": "Tables transcribed literally; prefix-freeness of the code and correctness of every decoder table entry are checked by the kernel over the whole tables, everything else by induction."
  },
  {
   "property": "C04",
   "status": "proved",
   "theorems": [
    "Verif.C04.limited",
    "Verif.C04.decode_iff"
   ],
   "note": ""
  },
  {
   "property": "C05",
   "status": "proved",
   "theorems": [
    "Verif.C05.contains_iff_inserted",
    "Verif.C05.contains_iff_effect",
    "Verif.C05.order_irrelevant"
   ],
   "note": "Inline and tree representations, including the switch between them, refine one insertion function."
  },
  {
   "property": "C06",
   "status": "proved",
   "theorems": [
    "Verif.C06.always_normalised",
    "Verif.C06.iteration_increasing",
    "Verif.C06.first_last_extreme"
   ],
   "note": "For every capacity and history that does not panic; first/last for sets without empty ranges."
  },
  {
   "property": "C07",
   "status": "proved",
   "theorems": [
    "Verif.C07.bounded_and_sound",
    "Verif.C07.never_panics",
    "Verif.C07.forgets_smallest_stored",
    "Verif.C07.documented_order_is_false",
    "Verif.C07.small_capacity_panics"
   ],
   "note": "Deviations proved as witnesses: capacities 0-3 can panic, and the doc comment's order (remove after insertion) is not what the code does."
  },
  {
   "property": "C08",
   "status": "proved",
   "theorems": [
    "Verif.C08.remove_until_exact"
   ],
   "note": ""
  },
  {
   "property": "C09",
   "status": "proved",
   "theorems": [
    "Verif.C09.delivered_is_prefix",
    "Verif.C09.first_accepted_wins"
   ],
   "note": "All histories of frames, reads, resets, shutdowns, window updates."
  },
  {
   "property": "C10",
   "status": "proved",
   "theorems": [
    "Verif.C10.read_progress"
   ],
   "note": "For streams neither reset nor abandoned (otherwise data is dropped on purpose)."
  },
  {
   "property": "C100",
   "status": "partial",
   "theorems": [
    "Verif.Props.C100.accepted",
    "Verif.Props.C100.grammar_false",
    "Verif.Props.C100.framed_partial"
   ],
   "note": "The claim is false: streams opened by this endpoint are not checked. Proved: what the application gets is what the frames denote."
  },
  {
   "property": "C101",
   "status": "proved",
   "theorems": [
    "Verif.Props.C101.determined",
    "Verif.Props.C101.finished",
    "Verif.Props.C101.reset"
   ],
   "note": ""
  },
  {
   "property": "C102",
   "status": "partial",
   "theorems": [
    "Verif.Props.C102.reported",
    "Verif.Props.C102.whole_false",
    "Verif.Props.C102.content_partial"
   ],
   "note": "The claim is false: a stream cut inside a frame is reported Finished. Proved: the content of all bytes was given."
  },
  {
   "property": "C103",
   "status": "proved",
   "theorems": [
    "Verif.Props.C103.unique",
    "Verif.Props.C103.push",
    "Verif.Props.C103.closed_control",
    "Verif.Props.C103.closed_qpack"
   ],
   "note": ""
  },
  {
   "property": "C104",
   "status": "proved",
   "theorems": [
    "Verif.Props.C104.decreasing",
    "Verif.Props.C104.requests"
   ],
   "note": ""
  },
  {
   "property": "C105",
   "status": "partial",
   "theorems": [
    "Verif.Props.C105.reset_finished",
    "Verif.Props.C105.finished_twice",
    "Verif.Props.C105.once_false",
    "Verif.Props.C105.finished_false",
    "Verif.Props.C105.finished_partial"
   ],
   "note": "The claim is false. Proved: Finished at most once unless the local half is finished."
  },
  {
   "property": "C106",
   "status": "partial",
   "theorems": [
    "Verif.Props.C106.stalled",
    "Verif.Props.C106.woken_false",
    "Verif.Props.C106.poll_partial",
    "Verif.Props.C106.body_partial"
   ],
   "note": "The claim is false after an empty DATA frame. Proved: when poll returns Done each readable stream has nothing left or has its event given, and recv_body returning Done inside a frame leaves nothing."
  },
  {
   "property": "C107",
   "status": "partial",
   "theorems": [
    "Verif.Props.C107.accepted",
    "Verif.Props.C107.refused_false",
    "Verif.Props.C107.message_partial"
   ],
   "note": "The claim is false. Proved: such streams are read as messages."
  },
  {
   "property": "C108",
   "status": "partial",
   "theorems": [
    "Verif.Props.C108.leak_kept",
    "Verif.Props.C108.forgotten_false",
    "Verif.Props.C108.forgotten_partial"
   ],
   "note": "The claim is false for unknown unidirectional streams. Proved: an entry over on both sides waits only for its Finished event."
  },
  {
   "property": "C109",
   "status": "proved",
   "theorems": [
    "Verif.Props.C109.whole",
    "Verif.Props.C109.none",
    "Verif.Props.C109.accepted"
   ],
   "note": ""
  },
  {
   "property": "C11",
   "status": "proved",
   "theorems": [
    "Verif.C11.stream_frame_rejected",
    "Verif.C11.reset_frame_rejected",
    "Verif.C11.final_size_unique"
   ],
   "note": ""
  },
  {
   "property": "C110",
   "status": "partial",
   "theorems": [
    "Verif.Props.C110.goaway_code",
    "Verif.Props.C110.half_code",
    "Verif.Props.C110.coded_false",
    "Verif.Props.C110.poll_partial",
    "Verif.Props.C110.body_partial"
   ],
   "note": "The claim is false for two errors. Proved for the others."
  },
  {
   "property": "C111",
   "status": "partial",
   "theorems": [
    "Verif.Props.C111.beyond",
    "Verif.Props.C111.limited_false",
    "Verif.Props.C111.limited_partial"
   ],
   "note": "The claim is false by one. Proved with the limit raised by one."
  },
  {
   "property": "C112",
   "status": "proved",
   "theorems": [
    "Verif.Props.C112.poll",
    "Verif.Props.C112.body"
   ],
   "note": ""
  },
  {
   "property": "C113",
   "status": "partial",
   "theorems": [
    "Verif.Props.C113.sent",
    "Verif.Props.C113.grammar_false",
    "Verif.Props.C113.grammar_partial"
   ],
   "note": "The claim is false of servers, which can send non-trailer HEADERS after DATA. Proved for executions without that, and without requests of servers and responses of clients."
  },
  {
   "property": "C114",
   "status": "proved",
   "theorems": [
    "Verif.Props.C114.transfer",
    "Verif.Props.C114.complete"
   ],
   "note": ""
  },
  {
   "property": "C115",
   "status": "proved",
   "theorems": [
    "Verif.Props.C115.decreasing",
    "Verif.Props.C115.sent",
    "Verif.Props.C115.no_request"
   ],
   "note": ""
  },
  {
   "property": "C116",
   "status": "proved",
   "theorems": [
    "Verif.Props.C116.sound",
    "Verif.Props.C116.wellformed",
    "Verif.Props.C116.no_panic"
   ],
   "note": ""
  },
  {
   "property": "C117",
   "status": "partial",
   "theorems": [
    "Verif.Props.C117.reordering",
    "Verif.Props.C117.ranges",
    "Verif.Props.C117.complete_partial",
    "Verif.Props.C117.ordered",
    "Verif.Props.C117.kept",
    "Verif.Props.C117.processed"
   ],
   "note": "The claim is false: a packet that arrives late is never acknowledged if an ACK frame sent before with a larger number is acknowledged before the next ACK frame is sent, and the packets with the smallest numbers are forgotten when there are more than 68 ranges. Proved for executions without these, and for arrival in order."
  },
  {
   "property": "C118",
   "status": "proved",
   "theorems": [
    "Verif.Props.C118.delay",
    "Verif.Props.C118.once"
   ],
   "note": ""
  },
  {
   "property": "C119",
   "status": "proved",
   "theorems": [
    "Verif.Props.C119.understood",
    "Verif.Props.C119.follow",
    "Verif.Props.C119.forged",
    "Verif.Props.C119.kept",
    "Verif.Props.C119.stuck"
   ],
   "note": "A client takes part once it has seen HANDSHAKE_DONE; before, packets of a server that has updated are dropped for ever (stuck)."
  },
  {
   "property": "C12",
   "status": "proved",
   "theorems": [
    "Verif.C12.beyond_limit_rejected",
    "Verif.C12.reset_beyond_limit_rejected",
    "Verif.C12.within_limit_not_refused",
    "Verif.C12.accepted_within_limit",
    "Verif.C12.limit_monotone"
   ],
   "note": ""
  },
  {
   "property": "C120",
   "status": "partial",
   "theorems": [
    "Verif.Props.C120.claim_false",
    "Verif.Props.C120.first_partial"
   ],
   "note": "The claim is false: numbers are compared with that of the packet that started the update only. Proved for that packet."
  },
  {
   "property": "C121",
   "status": "partial",
   "theorems": [
    "Verif.Props.C121.claim_false",
    "Verif.Props.C121.timer",
    "Verif.Props.C121.refused_partial"
   ],
   "note": "The claim is false: the mark is set when any 1-RTT packet is built, and removed by the timer. Proved when only packets arrive in between."
  },
  {
   "property": "C122",
   "status": "partial",
   "theorems": [
    "Verif.Props.C122.claim_false",
    "Verif.Props.C122.floor_partial",
    "Verif.Props.C122.no_panic"
   ],
   "note": "The claim is false: path MTU discovery does not change the datagram size of the controller. Proved with the smallest size in use so far; no panics."
  },
  {
   "property": "C123",
   "status": "partial",
   "theorems": [
    "Verif.Props.C123.reno",
    "Verif.Props.C123.responds",
    "Verif.Props.C123.once_partial",
    "Verif.Props.C123.claim_false"
   ],
   "note": "Proved for Reno (exactly). False for CUBIC: after a pause, packets sent at the first instant count as sent before the reduction, and their loss is ignored. For CUBIC it is proved that it shrinks at most once for packets sent before a reduction."
  },
  {
   "property": "C124",
   "status": "partial",
   "theorems": [
    "Verif.Props.C124.reno",
    "Verif.Props.C124.peak_partial",
    "Verif.Props.C124.claim_false"
   ],
   "note": "Proved for Reno. False for CUBIC: a reduction for lost packets is undone by one acknowledgement. For CUBIC proved from the largest window so far."
  },
  {
   "property": "C125",
   "status": "partial",
   "theorems": [
    "Verif.Props.C125.reno",
    "Verif.Props.C125.cubic_partial",
    "Verif.Props.C125.claim_false"
   ],
   "note": "Proved for Reno. False for CUBIC: in recovery the allowance of proportional rate reduction is added to what the window leaves. For CUBIC proved before the first loss, without HyStart++."
  },
  {
   "property": "C126",
   "status": "partial",
   "theorems": [
    "Verif.Props.C126.exit_once",
    "Verif.Props.C126.slow_start_once",
    "Verif.Props.C126.cubic_partial",
    "Verif.Props.C126.claim_false"
   ],
   "note": "Byte counting is proved for CUBIC and false for Reno, which adds a datagram for every packet. The exit is recorded once (both); slow start is not entered again as long as the datagram size does not change."
  },
  {
   "property": "C127",
   "status": "proved",
   "theorems": [
    "Verif.Props.C127.max_data",
    "Verif.Props.C127.max_streams",
    "Verif.Props.C127.max_stream_data",
    "Verif.Props.C127.reset",
    "Verif.Props.C127.stop",
    "Verif.Props.C127.wants_to_send"
   ],
   "note": "What is owed is defined by an observer's ledger over frames sent, results of calls and losses; the state of the connection is proved to remember it."
  },
  {
   "property": "C128",
   "status": "partial",
   "theorems": [
    "Verif.Props.C128.one_final_size",
    "Verif.Props.C128.data_within",
    "Verif.Props.C128.one_stop_code",
    "Verif.Props.C128.reset_code_changes"
   ],
   "note": "Final sizes and STOP_SENDING codes are proved. False for the error code of RESET_STREAM: STOP_SENDING after a reset by the application sends a second RESET_STREAM with another code."
  },
  {
   "property": "C129",
   "status": "partial",
   "theorems": [
    "Verif.Props.C129.refused_is_told",
    "Verif.Props.C129.lost_is_told_again",
    "Verif.Props.C129.told_is_true",
    "Verif.Props.C129.told_increasing",
    "Verif.Props.C129.told_once",
    "Verif.Props.C129.stale_frame_is_sent",
    "Verif.Props.C129.done_is_sent",
    "Verif.Props.C129.done_is_repeated",
    "Verif.Props.C129.done_once_acked",
    "Verif.Props.C129.done_only_by_server"
   ],
   "note": "All proved except `only while blocked`, which is false: a limit raised meanwhile does not cancel a pending STREAMS_BLOCKED."
  },
  {
   "property": "C13",
   "status": "proved",
   "theorems": [
    "Verif.C13.fin_iff"
   ],
   "note": ""
  },
  {
   "property": "C130",
   "status": "partial",
   "theorems": [
    "Verif.Props.C130.bytes_partial",
    "Verif.Props.C130.bytes_eliciting_partial",
    "Verif.Props.C130.count_exact",
    "Verif.Props.C130.count_ledger",
    "Verif.Props.C130.bytes_false",
    "Verif.Props.C130.after_skip_false"
   ],
   "note": "Exact for the recorded sizes, and for the real sizes if packets in flight are ack-eliciting. False for padded packets that are not (recorded size 0) and after the skipped packet number is acknowledged (the connection is then closed)."
  },
  {
   "property": "C131",
   "status": "partial",
   "theorems": [
    "Verif.Props.C131.partition",
    "Verif.Props.C131.once",
    "Verif.Props.C131.open_iff",
    "Verif.Props.C131.acked_exactly",
    "Verif.Props.C131.acked_frames",
    "Verif.Props.C131.lost_frames",
    "Verif.Props.C131.spurious_once",
    "Verif.Props.C131.spurious_lost",
    "Verif.Props.C131.probe_frames",
    "Verif.Props.C131.spurious_false"
   ],
   "note": "All clauses are proved as stated. Kept partial since late ACKs are recognised only while the lost packet is remembered; `spurious_false` shows one that is not."
  },
  {
   "property": "C132",
   "status": "partial",
   "theorems": [
    "Verif.Props.C132.sent_told",
    "Verif.Props.C132.flight_told",
    "Verif.Props.C132.told_once",
    "Verif.Props.C132.complete_partial",
    "Verif.Props.C132.lost_count_told",
    "Verif.Props.C132.lost_count_partial",
    "Verif.Props.C132.least_space",
    "Verif.Props.C132.complete_false",
    "Verif.Props.C132.unannounced",
    "Verif.Props.C132.least_false"
   ],
   "note": "Proved except: losses found at a change of path are neither told nor counted; packets not in flight are reported as lost though never announced; the least unacknowledged number is that of one space only."
  },
  {
   "property": "C133",
   "status": "partial",
   "theorems": [
    "Verif.Props.C133.strict_bounds",
    "Verif.Props.C133.strict_grows",
    "Verif.Props.C133.strict_adapts",
    "Verif.Props.C133.relaxed_bounds",
    "Verif.Props.C133.relaxed_adapts",
    "Verif.Props.C133.lost_only_partial",
    "Verif.Props.C133.oldest",
    "Verif.Props.C133.complete_partial",
    "Verif.Props.C133.lost_unacked_false",
    "Verif.Props.C133.complete_false",
    "Verif.Props.C133.delay_exact"
   ],
   "note": "Thresholds and adaptation are proved. Packet number 0 can be declared lost with nothing acknowledged. Completeness is proved for packets recorded in order of their times; the pacer may record them otherwise."
  },
  {
   "property": "C134",
   "status": "partial",
   "theorems": [
    "Verif.Props.C134.timer_exact",
    "Verif.Props.C134.armed_partial",
    "Verif.Props.C134.always_armed_partial",
    "Verif.Props.C134.earliest_partial",
    "Verif.Props.C134.probe_time",
    "Verif.Props.C134.count",
    "Verif.Props.C134.probes",
    "Verif.Props.C134.backoff",
    "Verif.Props.C134.armed_false",
    "Verif.Props.C134.earliest_false",
    "Verif.Props.C134.pathChange_false",
    "Verif.Props.C134.discarded"
   ],
   "note": "The probe timeout and its back-off are proved; armed and earliest are false in the same way as with the other controllers (C48, C85) and proved under the same conditions."
  },
  {
   "property": "C135",
   "status": "proved",
   "theorems": [
    "Verif.Props.C135.bytes_exact",
    "Verif.Props.C135.bytes_infinite",
    "Verif.Props.C135.time_exact",
    "Verif.Props.C135.time_none",
    "Verif.Props.C135.rate_exact",
    "Verif.Props.C135.rate_overflows",
    "Verif.Props.C135.bytes_mono",
    "Verif.Props.C135.time_mono",
    "Verif.Props.C135.bytes_of_time",
    "Verif.Props.C135.time_of_bytes",
    "Verif.Props.C135.rate_bytes",
    "Verif.Props.C135.sub_exact",
    "Verif.Props.C135.bytesPerSecond_exact"
   ],
   "note": "Multiplication with floats is not modelled. Above the stated bounds the rate overflows (rate_overflows)."
  },
  {
   "property": "C136",
   "status": "proved",
   "theorems": [
    "Verif.Props.C136.tokens",
    "Verif.Props.C136.lump_cond",
    "Verif.Props.C136.ten_ever",
    "Verif.Props.C136.loss_clears",
    "Verif.Props.C136.paced_exact",
    "Verif.Props.C136.rate_kept",
    "Verif.Props.C136.disabled",
    "Verif.Props.C136.future",
    "Verif.Props.C136.same_time",
    "Verif.Props.C136.burst_iff",
    "Verif.Props.C136.lump_ends",
    "Verif.Props.C136.new_lump",
    "Verif.Props.C136.zero_unpaced",
    "Verif.Props.C136.replenished_false"
   ],
   "note": "The answers of the congestion controller are arbitrary. The burst on leaving quiescence promised by a comment never happens (replenished_false); a rate of zero means no pacing (zero_unpaced)."
  },
  {
   "property": "C137",
   "status": "proved",
   "theorems": [
    "Verif.Props.C137.no_panic",
    "Verif.Props.C137.sound",
    "Verif.Props.C137.fresh",
    "Verif.Props.C137.order_nat"
   ],
   "note": ""
  },
  {
   "property": "C138",
   "status": "proved",
   "theorems": [
    "Verif.Props.C138.no_panic",
    "Verif.Props.C138.account",
    "Verif.Props.C138.once"
   ],
   "note": ""
  },
  {
   "property": "C139",
   "status": "proved",
   "theorems": [
    "Verif.Props.C139.reached",
    "Verif.Props.C139.measured",
    "Verif.Props.C139.rtt_measured",
    "Verif.Props.C139.inflight_measured",
    "Verif.Props.C139.all_counted",
    "Verif.Props.C139.bound",
    "Verif.Props.C139.unknown",
    "Verif.Props.C139.complete",
    "Verif.Props.C139.state_of",
    "Verif.Props.C139.state_single",
    "Verif.Props.C139.saved_point_false"
   ],
   "note": "With overestimate avoidance (off by default) a point in the middle of an ACK is saved, against the comment (saved_point_false)."
  },
  {
   "property": "C14",
   "status": "partial",
   "theorems": [
    "Verif.C14.reset_reported_partial",
    "Verif.C14.reset_after_fin_not_reported",
    "Verif.C14.reset_after_fin_never_readable",
    "Verif.C14.no_data_after_reset"
   ],
   "note": "False in general: a reset arriving after the final size is known is never reported (witness and general theorem). Proved for all other resets."
  },
  {
   "property": "C140",
   "status": "proved",
   "theorems": [
    "Verif.Props.C140.extra_exact",
    "Verif.Props.C140.height_le",
    "Verif.Props.C140.agg_exact",
    "Verif.Props.C140.forgotten_false"
   ],
   "note": "After a new maximum of bandwidth heights are kept as of round 0 and forgotten early (forgotten_false)."
  },
  {
   "property": "C141",
   "status": "proved",
   "theorems": [
    "Verif.Props.C141.ledger",
    "Verif.Props.C141.rtt_measured",
    "Verif.Props.C141.bw_measured",
    "Verif.Props.C141.rtt_least",
    "Verif.Props.C141.rtt_raised",
    "Verif.Props.C141.rtt_period",
    "Verif.Props.C141.bw_least",
    "Verif.Props.C141.bw_raised",
    "Verif.Props.C141.round_step",
    "Verif.Props.C141.rounds_apart",
    "Verif.Props.C141.round_due"
   ],
   "note": "The RTT jump detector is not modelled."
  },
  {
   "property": "C142",
   "status": "proved",
   "theorems": [
    "Verif.Props.C142.no_panic",
    "Verif.Props.C142.modes",
    "Verif.Props.C142.modes_else",
    "Verif.Props.C142.late",
    "Verif.Props.C142.in_force",
    "Verif.Props.C142.pace",
    "Verif.Props.C142.exit_iff",
    "Verif.Props.C142.exit_why",
    "Verif.Props.C142.exit_kept"
   ],
   "note": "What is computed with floats is arbitrary."
  },
  {
   "property": "C143",
   "status": "partial",
   "theorems": [
    "Verif.Props.C143.cwnd_after",
    "Verif.Props.C143.bounds",
    "Verif.Props.C143.growth",
    "Verif.Props.C143.full",
    "Verif.Props.C143.capped",
    "Verif.Props.C143.startup",
    "Verif.Props.C143.total",
    "Verif.Props.C143.scale",
    "Verif.Props.C143.scale_whole",
    "Verif.Props.C143.floor_false",
    "Verif.Props.C143.floor_partial"
   ],
   "note": "All but the last sentence is proved; the last one is false: a maximum pacing rate makes the window as small as that rate times the round trip (floor_false); without one and at constant packet size it holds (floor_partial)."
  },
  {
   "property": "C144",
   "status": "partial",
   "theorems": [
    "Verif.Props.C144.waits",
    "Verif.Props.C144.stays",
    "Verif.Props.C144.ends",
    "Verif.Props.C144.drains_partial",
    "Verif.Props.C144.leaves_false"
   ],
   "note": "The last sentence is false where half the bandwidth-delay product is below the initial window: such a sender stays in ProbeRTT (leaves_false); drains_partial has the other case."
  },
  {
   "property": "C145",
   "status": "proved",
   "theorems": [
    "Verif.Props.C145.remembered",
    "Verif.Props.C145.forgotten",
    "Verif.Props.C145.bound_moves",
    "Verif.Props.C145.bound_lowered",
    "Verif.Props.C145.bound_kept"
   ],
   "note": "What is computed with floats is arbitrary; 0.7 is 1 - beta in floats."
  },
  {
   "property": "C146",
   "status": "proved",
   "theorems": [
    "Verif.Props.C146.seeking",
    "Verif.Props.C146.estimate_le",
    "Verif.Props.C146.moved",
    "Verif.Props.C146.delivered",
    "Verif.Props.C146.lossless",
    "Verif.Props.C146.capped",
    "Verif.Props.C146.kept"
   ],
   "note": "What is computed with floats is arbitrary; 0.7 is 1 - beta in floats."
  },
  {
   "property": "C147",
   "status": "proved",
   "theorems": [
    "Verif.Props.C147.plateau"
   ],
   "note": "The quarter is full_bw_threshold in floats; float arithmetic is arbitrary."
  },
  {
   "property": "C148",
   "status": "partial",
   "theorems": [
    "Verif.Props.C148.names_false",
    "Verif.Props.C148.names_false_apart",
    "Verif.Props.C148.names_partial",
    "Verif.Props.C148.linked_partial",
    "Verif.Props.C148.stuck",
    "Verif.Props.C148.stuck_for_ever"
   ],
   "note": "The claim is false: a packet from a second address (a copy sent by an attacker will do) makes a path that names the connection ID without being linked to it; when the client then retires that ID and the probe of the second path is lost, every send call fails. Proved for all histories in which each connection ID is used from one address and there are no more addresses than paths allowed (names_partial, linked_partial); without the second condition it is false again, with no copied packet (names_false_apart)."
  },
  {
   "property": "C149",
   "status": "partial",
   "theorems": [
    "Verif.Props.C149.never_refused",
    "Verif.Props.C149.read_is_prefix",
    "Verif.Props.C149.acked_is_there",
    "Verif.Props.C149.done_is_readable",
    "Verif.Props.C149.end_is_end_partial",
    "Verif.Props.C149.truncated_false",
    "Verif.Props.C149.truncated_seen",
    "Verif.Props.C149.end_hidden"
   ],
   "note": "No frame is refused, reads are prefixes and acknowledged data is there: proved for all histories. The part about the end is false in two ways: after stream_shutdown(Write) an empty frame with FIN at the place where the stream was cut is still sent, so a reader that gets it before RESET_STREAM sees a clean end of truncated data; and the end of a stream stays hidden for ever when FIN first arrives in a retransmission of data that was already read. Proved that the end told is the end as long as the writing application does not shut the stream down."
  },
  {
   "property": "C15",
   "status": "partial",
   "theorems": [
    "Verif.C15.credit_exact_partial",
    "Verif.C15.charged_is_highest_partial",
    "Verif.C15.empty_frame_leaks_credit",
    "Verif.C15.charged_ge_highest"
   ],
   "note": "False in general: empty non-FIN frames beyond the highest offset are charged but not remembered (witness). Proved for all histories without such frames."
  },
  {
   "property": "C150",
   "status": "partial",
   "theorems": [
    "Verif.Props.C150.sent_again",
    "Verif.Props.C150.end_sent_again",
    "Verif.Props.C150.can_finish_partial",
    "Verif.Props.C150.window_opens",
    "Verif.Props.C150.one_byte_stuck",
    "Verif.Props.C150.can_finish_false"
   ],
   "note": "Retransmission proved from all reachable states. The part about the window holds for windows of at least two bytes and is false for one byte (initial_max_stream_data of 1): no update is ever sent. The end is proved to arrive when some byte was still unread; see C149 for the other case."
  },
  {
   "property": "C151",
   "status": "partial",
   "theorems": [
    "Verif.Props.C151.accepted",
    "Verif.Props.C151.validated_partial",
    "Verif.Props.C151.one_family",
    "Verif.Props.C151.follows",
    "Verif.Props.C151.only_initial",
    "Verif.Props.C151.only_version",
    "Verif.Props.C151.retry_once",
    "Verif.Props.C151.mixed_false"
   ],
   "note": "The claim is false for a server that is reached over both IPv4 and IPv6: the family of the address is not part of what the tag protects, so a token for an IPv4 address and a chosen connection ID also validates for an IPv6 address. Proved when the token was made for an address of the same family, in particular for servers with one family. That tags are not forged is an assumption."
  },
  {
   "property": "C152",
   "status": "partial",
   "theorems": [
    "Verif.Props.C152.right_partial",
    "Verif.Props.C152.heard",
    "Verif.Props.C152.heard_for_good",
    "Verif.Props.C152.new_known",
    "Verif.Props.C152.closed_forgotten",
    "Verif.Props.C152.short_for",
    "Verif.Props.C152.stolen_false",
    "Verif.Props.C152.stolen_wrong",
    "Verif.Props.C152.right_false",
    "Verif.Props.C152.batch_false",
    "Verif.Props.C152.length_false"
   ],
   "note": "Proved for all interleavings as long as no client opens a connection with an ID that another connection has just issued and the router has not heard of; without that assumption the claim is false (such a client takes the ID away from its own first connection). False also for the later datagrams of a receive batch, which all go where the first goes, and for short-header packets if a custom generator makes IDs of other than 20 bytes. That generated IDs are new is an assumption."
  },
  {
   "property": "C153",
   "status": "partial",
   "theorems": [
    "Verif.Props.C153.as_made",
    "Verif.Props.C153.one_packet",
    "Verif.Props.C153.one_destination",
    "Verif.Props.C153.within_limits",
    "Verif.Props.C153.quiet_partial",
    "Verif.Props.C153.iter_empty",
    "Verif.Props.C153.small_first_false",
    "Verif.Props.C153.tail_false",
    "Verif.Props.C153.two_paths_false",
    "Verif.Props.C153.two_paths_reached",
    "Verif.Props.C153.close_false",
    "Verif.Props.C153.stale_false"
   ],
   "note": "Datagrams as made, destinations and limits: proved for every connection. That nothing is left to send when the worker sleeps is proved for one path and data that can be cut (or packets of one size without release times); it is false when the second packet does not fit the size of a short first one, when the end of the buffer is too short for the next packet (gcongestion), and with two paths of which the last asked is idle. A path that goes away while it waits for its turn makes the worker close the connection. The cases in which the pacer puts packets off are not modelled."
  },
  {
   "property": "C154",
   "status": "partial",
   "theorems": [
    "Verif.Props.C154.at_most_limit",
    "Verif.Props.C154.at_most_bytes",
    "Verif.Props.C154.gauges",
    "Verif.Props.C154.gauges_at_rest",
    "Verif.Props.C154.given_empty",
    "Verif.Props.C154.dropped",
    "Verif.Props.C154.taken_out",
    "Verif.Props.C154.kept_false"
   ],
   "note": "Limits, gauges and clean buffers: proved for all interleavings. That a buffer is kept if there is room is proved when no other thread is in the middle of an operation on the shard; otherwise it is false (another thread that found no room still counts until it takes its count back). Atomic steps are taken as sequentially consistent."
  },
  {
   "property": "C155",
   "status": "partial",
   "theorems": [
    "Verif.Props.C155.as_meant_partial",
    "Verif.Props.C155.readable_partial",
    "Verif.Props.C155.made_iff",
    "Verif.Props.C155.truncate_false",
    "Verif.Props.C155.advance_false",
    "Verif.Props.C155.total_bytes",
    "Verif.Props.C155.capacity",
    "Verif.Props.C155.expand_partial",
    "Verif.Props.C155.expand_false"
   ],
   "note": "Proved for all calls whose count is below 2^63. With larger counts and without overflow checks truncate can leave a buffer that cannot be read, and advance can go back instead of panicking. Expanding a pool buffer is proved for one from whose front nothing was taken; otherwise it makes fewer bytes readable, or leaves a buffer that cannot be read."
  },
  {
   "property": "C156",
   "status": "partial",
   "theorems": [
    "Verif.Props.C156.round_trip",
    "Verif.Props.C156.panics",
    "Verif.Props.C156.panic_false",
    "Verif.Props.C156.in_order",
    "Verif.Props.C156.delivered",
    "Verif.Props.C156.refused",
    "Verif.Props.C156.stays",
    "Verif.Props.C156.ends",
    "Verif.Props.C156.kept_partial",
    "Verif.Props.C156.shared_false",
    "Verif.Props.C156.idle_false",
    "Verif.Props.C156.extended",
    "Verif.Props.C156.others"
   ],
   "note": "Round trip, order and delivery: proved. That a request has its flow until its stream ends is proved when all flows are those of their streams (RFC 9298); with the older header by which clients choose the number, two requests can share a flow and the end of one takes it from the other. False: a datagram for an ended or unknown stream opens a flow that nothing ends, so the connection is never idle again; and a client can choose a number that makes the server panic when it sends on that flow."
  },
  {
   "property": "C157",
   "status": "partial",
   "theorems": [
    "Verif.Props.C157.exact",
    "Verif.Props.C157.stale",
    "Verif.Props.C157.fresh_of_newer",
    "Verif.Props.C157.backed_partial",
    "Verif.Props.C157.backed_false",
    "Verif.Props.C157.not_lowered",
    "Verif.Props.C157.only_acks",
    "Verif.Props.C157.marked",
    "Verif.Props.C157.begins",
    "Verif.Props.C157.stays_partial",
    "Verif.Props.C157.stays_false",
    "Verif.Props.C157.no_panic"
   ],
   "note": "Proved when the newest packet an ACK newly acknowledges was sent after the packet last sampled (or nothing was acknowledged between the two). False otherwise: the bytes of a late acknowledgement are added to a sample whose time is not extended, which reports a rate at which bytes have not been acknowledged over any round trip. The end of the application-limited phase is proved for one packet number space and false with several, whose numbers are compared. Rounding of f64 is not modelled."
  },
  {
   "property": "C158",
   "status": "proved",
   "theorems": [
    "Verif.Props.C158.in_order",
    "Verif.Props.C158.nothing_lost",
    "Verif.Props.C158.fin_asked",
    "Verif.Props.C158.cancels_only",
    "Verif.Props.C158.cancels",
    "Verif.Props.C158.waits",
    "Verif.Props.C158.flushes",
    "Verif.Props.C158.no_assert",
    "Verif.Props.C158.bounded"
   ],
   "note": "One stream; the answers of quiche are arbitrary. Channels of tokio are bounded queues with ends that can be dropped. Flow control, priorities and statistics are not modelled."
  },
  {
   "property": "C159",
   "status": "partial",
   "theorems": [
    "Verif.Props.C159.in_order",
    "Verif.Props.C159.end_true",
    "Verif.Props.C159.silent",
    "Verif.Props.C159.bounded",
    "Verif.Props.C159.stops_only",
    "Verif.Props.C159.stop_or_end",
    "Verif.Props.C159.forgotten",
    "Verif.Props.C159.end_told_partial",
    "Verif.Props.C159.end_lost",
    "Verif.Props.C159.survives_partial",
    "Verif.Props.C159.kills",
    "Verif.Props.C159.twice"
   ],
   "note": "Order, limits, the truth of the end, silence after RESET_STREAM and forgetting: proved. That the end is told is proved while the stream is kept; it is false in general: if the end waits for room in the channel when the driver writes the FIN of the application, the stream is forgotten and the channel closed without the end. That a stream never ends the connection and is announced once is proved when no write fails and the application does not shut the stream down; after shutting down its write side alone, the next piece of the peer's body ends the connection, and trailers are announced as a new request."
  },
  {
   "property": "C16",
   "status": "proved",
   "theorems": [
    "Verif.C16.sent_is_written",
    "Verif.C16.written_only_grows"
   ],
   "note": "All histories of writes (both APIs), frames, acknowledgements, losses, limits, stops and shutdowns."
  },
  {
   "property": "C160",
   "status": "partial",
   "theorems": [
    "Verif.Props.C160.fits",
    "Verif.Props.C160.length_field",
    "Verif.Props.C160.window",
    "Verif.Props.C160.eliciting_inFlight",
    "Verif.Props.C160.no_panic",
    "Verif.Props.C160.min_payload_partial",
    "Verif.Props.C160.tiny",
    "Verif.Props.C160.ack_sent",
    "Verif.Props.C160.ack_only",
    "Verif.Props.C160.sends",
    "Verif.Props.C160.filled",
    "Verif.Props.C160.probing_1200",
    "Verif.Props.C160.built",
    "Verif.Props.C160.dgram_fits",
    "Verif.Props.C160.initial_1200",
    "Verif.Props.C160.short_last",
    "Verif.Props.C160.stops",
    "Verif.Props.C160.no_zeros_partial",
    "Verif.Props.C160.zeros",
    "Verif.Props.C160.mtu_partial",
    "Verif.Props.C160.mtu_exceeded",
    "Verif.Props.C160.limit_le",
    "Verif.Props.C160.peer_partial",
    "Verif.Props.C160.peer_exceeded",
    "Verif.Props.C160.writable_fits_partial",
    "Verif.Props.C160.writable_stuck"
   ],
   "note": "Buffer, window, ACK, 1200 bytes with Initial packets, order in the datagram: proved. Four bytes of payload: only if the window has room for them (tiny is the witness). No padding after a 1-RTT packet: only if the window is not in the way (zeros). MTU: datagrams of one packet (mtu_exceeded: coalesced packets share the limit of the next probe). Peer's limit: without path MTU discovery (peer_exceeded). Writable DATAGRAMs: with an MTU as large as the maximum packet (writable_stuck)."
  },
  {
   "property": "C161",
   "status": "partial",
   "theorems": [
    "Verif.Props.C161.evidence",
    "Verif.Props.C161.alone_partial",
    "Verif.Props.C161.waits_partial",
    "Verif.Props.C161.stuck",
    "Verif.Props.C161.displaces"
   ],
   "note": "The MTU used was delivered on the path: proved for all runs. Each path as if alone: proved for runs in which 1-RTT packets are sent on the active path. In general false: a packet on another path takes the probe of the active path along, whose fate the active path never learns (stuck), and the PATH_CHALLENGE does not fit in that packet (displaces)."
  },
  {
   "property": "C162",
   "status": "partial",
   "theorems": [
    "Verif.Props.C162.gauge",
    "Verif.Props.C162.gauge_zero",
    "Verif.Props.C162.estimates",
    "Verif.Props.C162.few",
    "Verif.Props.C162.is_sample",
    "Verif.Props.C162.recent",
    "Verif.Props.C162.sample_le",
    "Verif.Props.C162.honest_partial",
    "Verif.Props.C162.over",
    "Verif.Props.C162.stale",
    "Verif.Props.C162.tracks",
    "Verif.Props.C162.maximum"
   ],
   "note": "Gauge, absence of panics, bookkeeping and maximum: proved. That samples are not above the rate of sending is proved up to the tenth round; after that the bytes of ten rounds are divided by the time of nine, and a steady rate is reported as ten ninths of itself (over). That the estimate is from the last two minutes is proved when something was acknowledged in the latest ten rounds; otherwise it stays for ever (stale). Shares of lost bytes (floats) are not modelled."
  },
  {
   "property": "C163",
   "status": "proved",
   "theorems": [
    "Verif.Props.C163.step_ok",
    "Verif.Props.C163.refines",
    "Verif.Props.C163.no_panic",
    "Verif.Props.C163.unchanged",
    "Verif.Props.C163.moved",
    "Verif.Props.C163.outside",
    "Verif.Props.C163.oversize"
   ],
   "note": "Octets and OctetsMut as one cursor; Huffman coding is C03, C04 and C66. Writing through a mutable sub-buffer is not modelled. A value too large for put_varint_with_len is outside the claim (oversize shows what happens)."
  },
  {
   "property": "C164",
   "status": "proved",
   "theorems": [
    "Verif.Props.C164.no_panic",
    "Verif.Props.C164.all_killed",
    "Verif.Props.C164.late",
    "Verif.Props.C164.refuses",
    "Verif.Props.C164.only",
    "Verif.Props.C164.signal_after",
    "Verif.Props.C164.registered",
    "Verif.Props.C164.leak"
   ],
   "note": "A step is one lock of a shard or one access to the flag; tokio's dropping of aborted tasks is a step that may come at any later time. leak: marks of killed tasks stay in the map for ever; the claim does not cover the map after the switch was used."
  },
  {
   "property": "C165",
   "status": "partial",
   "theorems": [
    "Verif.Props.C165.stream_turn",
    "Verif.Props.C165.dgram_turn",
    "Verif.Props.C165.work_partial",
    "Verif.Props.C165.idle",
    "Verif.Props.C165.closed_packet",
    "Verif.Props.C165.stream_starves",
    "Verif.Props.C165.dgram_starves",
    "Verif.Props.C165.at_most_once",
    "Verif.Props.C165.in_order",
    "Verif.Props.C165.recv_ok",
    "Verif.Props.C165.zero_queue"
   ],
   "note": "Turns, delivery and receiving: proved. Not true: that neither starves (each packet that can carry neither, such as an MTU probe or one on another path, gives the turn back to datagrams: stream_starves; a datagram of the largest size that is accepted waits while packets carry any other frame: dgram_starves), that a packet with room is not left empty (idle: when the turn is that of a stopped stream), and that packets with datagrams are acknowledged when the receive queue is configured with length zero (zero_queue)."
  },
  {
   "property": "C166",
   "status": "partial",
   "theorems": [
    "Verif.Props.C166.taken_iff",
    "Verif.Props.C166.carried",
    "Verif.Props.C166.refused",
    "Verif.Props.C166.no_panic",
    "Verif.Props.C166.replaced",
    "Verif.Props.C166.forgotten_partial",
    "Verif.Props.C166.forgotten_false",
    "Verif.Props.C166.stored_false"
   ],
   "note": "Reading back, refusing and replacing: proved. Not true: the stream limits stay at the remembered values if those are larger (forgotten_false), and the remembered acknowledgement delay, its exponent and the stateless reset token are in force until the handshake (stored_false)."
  },
  {
   "property": "C167",
   "status": "partial",
   "theorems": [
    "Verif.Props.C167.reset_iff",
    "Verif.Props.C167.handshake_token",
    "Verif.Props.C167.reset_partial",
    "Verif.Props.C167.closed_by_token",
    "Verif.Props.C167.missed_false",
    "Verif.Props.C167.retired_false",
    "Verif.Props.C167.resumed_false"
   ],
   "note": "Proved as long as the server has one connection ID and no session was resumed, and that nobody without a token from parameters can end the connection. Not true in general: tokens of later connection IDs are not compared (missed_false), that of the first still counts after it was retired (retired_false), and that of an earlier connection counts while a session is resumed (resumed_false)."
  },
  {
   "property": "C168",
   "status": "partial",
   "theorems": [
    "Verif.Props.C168.enter",
    "Verif.Props.C168.enters",
    "Verif.Props.C168.steady",
    "Verif.Props.C168.back",
    "Verif.Props.C168.exit_iff",
    "Verif.Props.C168.exit_partial",
    "Verif.Props.C168.outlier",
    "Verif.Props.C168.exit_false"
   ],
   "note": "Proved with packets counted as measurements, and the end of slow start for histories without losses. Not true: one ACK frame for eight packets, which is one measurement, counts as eight (outlier), and rounds counted before a loss are not forgotten, so that a later conservative slow start can be over after one round (exit_false)."
  },
  {
   "property": "C169",
   "status": "partial",
   "theorems": [
    "Verif.Props.C169.taken_iff",
    "Verif.Props.C169.refused",
    "Verif.Props.C169.read_back",
    "Verif.Props.C169.read_full",
    "Verif.Props.C169.read_partial",
    "Verif.Props.C169.tiny_fits",
    "Verif.Props.C169.empty_false",
    "Verif.Props.C169.line_false",
    "Verif.Props.C169.header_false"
   ],
   "note": "Proved for writers that never fail and for those that fail for good at any byte of an event, and, for writers that recover, for all but two points of failure. JSON is a parameter (no separator byte, parts are not readable). Not true for writers that recover: an empty record ends the reading although later events are in the file (empty_false), a record without its line feed is read though its call failed (line_false), and a header written in a second attempt is not found (header_false)."
  },
  {
   "property": "C17",
   "status": "proved",
   "theorems": [
    "Verif.C17.written_within_limit",
    "Verif.C17.sent_within_limit",
    "Verif.C17.limit_mono",
    "Verif.C17.limit_ge",
    "Verif.C17.limit_is_granted",
    "Verif.C17.write_takes_all_allowed"
   ],
   "note": ""
  },
  {
   "property": "C170",
   "status": "partial",
   "theorems": [
    "Verif.Props.C170.duration_eq",
    "Verif.Props.C170.duration_mono",
    "Verif.Props.C170.duration_le",
    "Verif.Props.C170.reinit_partial",
    "Verif.Props.C170.reinit_false"
   ],
   "note": "The time and its bounds: proved. Making recovery anew: proved if time passes after each packet; not true otherwise, since bytes that are sent and acknowledged or discarded at one instant leave no time (reinit_false)."
  },
  {
   "property": "C171",
   "status": "proved",
   "theorems": [
    "Verif.Props.C171.report_iff",
    "Verif.Props.C171.once",
    "Verif.Props.C171.spike",
    "Verif.Props.C171.hmm_report",
    "Verif.Props.C171.hmm_once"
   ],
   "note": "Computations in single precision are parameters: the threshold as a function of the least delay, and the most likely state of the Markov model, which comes with each sample. The filter of the Markov model itself is not modelled."
  },
  {
   "property": "C172",
   "status": "partial",
   "theorems": [
    "Verif.Props.C172.once",
    "Verif.Props.C172.kept",
    "Verif.Props.C172.order",
    "Verif.Props.C172.rest_partial",
    "Verif.Props.C172.rest_false",
    "Verif.Props.C172.forged_false"
   ],
   "note": "At most once, the bound of the queue and the order of replay: proved. Independence of the packets of a datagram: proved behind packets that were processed or kept; not true behind a duplicate or a packet that cannot be opened, since the rest of the datagram is dropped then (rest_false). Forged packets can fill the queue (forged_false)."
  },
  {
   "property": "C173",
   "status": "partial",
   "theorems": [
    "Verif.Props.C173.armed",
    "Verif.Props.C173.once",
    "Verif.Props.C173.handed",
    "Verif.Props.C173.gives_up",
    "Verif.Props.C173.start_partial",
    "Verif.Props.C173.start_false"
   ],
   "note": "Proved for every connection with the calls made by the connector (whose source connection ID does not change during the handshake), except the time of the start, which is set anew after each datagram and timeout (start_false); proved for handshakes of one datagram."
  },
  {
   "property": "C174",
   "status": "partial",
   "theorems": [
    "Verif.Props.C174.conserve",
    "Verif.Props.C174.streams",
    "Verif.Props.C174.order_partial",
    "Verif.Props.C174.order_false",
    "Verif.Props.C174.progress_partial",
    "Verif.Props.C174.stuck_false",
    "Verif.Props.C174.response",
    "Verif.Props.C174.final_false",
    "Verif.Props.C174.goaway_false",
    "Verif.Props.C174.leak_false",
    "Verif.Props.C174.limit",
    "Verif.Props.C174.limit_partial",
    "Verif.Props.C174.limit_false"
   ],
   "note": "Once, none lost, the streams used, headers once and the bound on requests: proved. Not true: the order when a request has to wait (order_false); progress when the blocked request holds the last stream (stuck_false); the final response after an interim one (final_false); requests after GOAWAY (goaway_false); trailers at the limit of a server (limit_false). Proved without these."
  },
  {
   "property": "C175",
   "status": "partial",
   "theorems": [
    "Verif.Props.C175.order",
    "Verif.Props.C175.complete",
    "Verif.Props.C175.beginning",
    "Verif.Props.C175.delivery",
    "Verif.Props.C175.refusal",
    "Verif.Props.C175.room_partial",
    "Verif.Props.C175.lifetime_false",
    "Verif.Props.C175.memory",
    "Verif.Props.C175.gone_empty",
    "Verif.Props.C175.kept_partial",
    "Verif.Props.C175.kept_false"
   ],
   "note": "Order, completeness and the reasons for closing: proved. Room for 4096 bytes out of order: proved while fewer than 61440 bytes have been given to TLS at the level; the limit counts all bytes since the beginning, so that a connection is closed with nothing waiting (lifetime_false). Memory: bytes waiting and number of pieces bounded (memory), but each piece keeps its whole frame, so the memory is not bounded by the bytes waiting (kept_false)."
  },
  {
   "property": "C176",
   "status": "partial",
   "theorems": [
    "Verif.Props.C176.datagrams",
    "Verif.Props.C176.delivery",
    "Verif.Props.C176.order",
    "Verif.Props.C176.reads_first",
    "Verif.Props.C176.responsive",
    "Verif.Props.C176.timers",
    "Verif.Props.C176.timer_fires",
    "Verif.Props.C176.asleep_partial",
    "Verif.Props.C176.asleep_false",
    "Verif.Props.C176.gives_up",
    "Verif.Props.C176.not_before",
    "Verif.Props.C176.told_partial",
    "Verif.Props.C176.early_false",
    "Verif.Props.C176.paced_false",
    "Verif.Props.C176.result_false"
   ],
   "note": "Delivery, bursts, order of callbacks and the handshake time: proved; reads_first for applications that always act. The timer while asleep: proved if asking for handshake packets does not change the connection; not true otherwise (asleep_false). Told only after the handshake: proved without early data, not true with it (early_false). Not true: that a handshake completed in time is not given up (paced_false), that the result is Ok only without a local error (result_false)."
  },
  {
   "property": "C177",
   "status": "partial",
   "theorems": [
    "Verif.Props.C177.sound",
    "Verif.Props.C177.complete",
    "Verif.Props.C177.same",
    "Verif.Props.C177.fin",
    "Verif.Props.C177.cut",
    "Verif.Props.C177.fin_partial",
    "Verif.Props.C177.fin_false",
    "Verif.Props.C177.drains",
    "Verif.Props.C177.small",
    "Verif.Props.C177.too_large",
    "Verif.Props.C177.malformed",
    "Verif.Props.C177.stuck",
    "Verif.Props.C177.panic_partial",
    "Verif.Props.C177.panic_false"
   ],
   "note": "Soundness, completeness, independence of the cuts, the mark of the last frame, the end of the loop and the memory: proved. Not true: that the end of a stream is always reported (fin_false; fin_partial says when it is lost) and that no bytes make the parser panic (panic_false; panic_partial says which do)."
  },
  {
   "property": "C178",
   "status": "partial",
   "theorems": [
    "Verif.Props.C178.control",
    "Verif.Props.C178.control_partial",
    "Verif.Props.C178.qpack",
    "Verif.Props.C178.streams",
    "Verif.Props.C178.urgent",
    "Verif.Props.C178.refused",
    "Verif.Props.C178.opened",
    "Verif.Props.C178.calls",
    "Verif.Props.C178.control_false",
    "Verif.Props.C178.done_false"
   ],
   "note": "Proved, except that SETTINGS is whole (control_partial: if there is credit for it when the stream is opened; control says how it is cut otherwise; control_false: a following GOAWAY then completes the cut SETTINGS frame) and that lack of credit is reported as an internal error (done_false)."
  },
  {
   "property": "C179",
   "status": "partial",
   "theorems": [
    "Verif.Props.C179.applied",
    "Verif.Props.C179.no_effect",
    "Verif.Props.C179.announced_partial",
    "Verif.Props.C179.early_false",
    "Verif.Props.C179.late_false",
    "Verif.Props.C179.short_false",
    "Verif.Props.C179.panic_false",
    "Verif.Props.C179.peer",
    "Verif.Props.C179.fixed",
    "Verif.Props.C179.at_once",
    "Verif.Props.C179.size_partial",
    "Verif.Props.C179.size_false",
    "Verif.Props.C179.own_size",
    "Verif.Props.C179.confirmed",
    "Verif.Props.C179.buffered",
    "Verif.Props.C179.stays"
   ],
   "note": "Proved: settings made in calls that do not finish take effect and others none; the parameters of the peer; the end of the handshake. Not true: that the peer is told what is in force (early_false with 0-RTT, late_false with packets in flight, short_false if the encoding does not fit; announced_partial otherwise), that setters do not panic (panic_false), and the bound on packets when the recovery is configured after the peer's parameters are known (size_false, size_partial)."
  },
  {
   "property": "C18",
   "status": "proved",
   "theorems": [
    "Verif.C18.lost_sent_again",
    "Verif.C18.never_stranded"
   ],
   "note": ""
  },
  {
   "property": "C180",
   "status": "partial",
   "theorems": [
    "Verif.Props.C180.picks",
    "Verif.Props.C180.nothing",
    "Verif.Props.C180.choice",
    "Verif.Props.C180.agree_partial",
    "Verif.Props.C180.long_false",
    "Verif.Props.C180.wire_partial",
    "Verif.Props.C180.wire_false",
    "Verif.Props.C180.refused_false",
    "Verif.Props.C180.order_false",
    "Verif.Props.C180.keys",
    "Verif.Props.C180.latest",
    "Verif.Props.C180.bytes",
    "Verif.Props.C180.panics",
    "Verif.Props.C180.error",
    "Verif.Props.C180.results",
    "Verif.Props.C180.stays",
    "Verif.Props.C180.closes_partial",
    "Verif.Props.C180.closes_false"
   ],
   "note": "Choice of the protocol, keys, handshake bytes, key log and errors proved for every list and every sequence of callbacks. Refuted: names of more than 255 bytes are sent as other names, so that a protocol can be chosen that the client does not have; a wire format list that breaks off is accepted and cut; a refused list replaces the server's; a handshake that fails in send with an error other than SSL_ERROR_SSL does not close the connection."
  },
  {
   "property": "C181",
   "status": "partial",
   "theorems": [
    "Verif.Props.C181.label_inj",
    "Verif.Props.C181.secret",
    "Verif.Props.C181.initial_keys",
    "Verif.Props.C181.mirror",
    "Verif.Props.C181.update",
    "Verif.Props.C181.update_same",
    "Verif.Props.C181.sealed_partial",
    "Verif.Props.C181.numbers",
    "Verif.Props.C181.once",
    "Verif.Props.C181.close_false"
   ],
   "note": "Keys, for every HKDF, are those of RFC 9001 and agree on both sides; every packet can be sealed if the first one is an Initial packet. Refuted: a server that closes the connection after the client's first packet and before sending any cannot seal its CONNECTION_CLOSE with AES (packet number 0 with a primed key) and is draining without having told the peer. The rule for nonces is that of BoringSSL, which is not in the repository."
  },
  {
   "property": "C182",
   "status": "partial",
   "theorems": [
    "Verif.Props.C182.codes",
    "Verif.Props.C182.h3codes_partial",
    "Verif.Props.C182.h3distinct",
    "Verif.Props.C182.h3codes_false",
    "Verif.Props.C182.reads_unique",
    "Verif.Props.C182.filled",
    "Verif.Props.C182.queued",
    "Verif.Props.C182.capacity_partial",
    "Verif.Props.C182.capacity_false",
    "Verif.Props.C182.status",
    "Verif.Props.C182.sequence",
    "Verif.Props.C182.next_stream",
    "Verif.Props.C182.opt_length",
    "Verif.Props.C182.stream_recv",
    "Verif.Props.C182.stream_send",
    "Verif.Props.C182.nanos_partial",
    "Verif.Props.C182.nanos_false",
    "Verif.Props.C182.millis_partial",
    "Verif.Props.C182.millis_false",
    "Verif.Props.C182.header_info",
    "Verif.Props.C182.header_info_false",
    "Verif.Props.C182.address_bytes",
    "Verif.Props.C182.address6_bytes",
    "Verif.Props.C182.address",
    "Verif.Props.C182.address_aborts",
    "Verif.Props.C182.address_optional",
    "Verif.Props.C182.iterator_partial",
    "Verif.Props.C182.iterator_false",
    "Verif.Props.C182.callbacks",
    "Verif.Props.C182.settings_false",
    "Verif.Props.C182.path_stats_partial",
    "Verif.Props.C182.max_rtt_false",
    "Verif.Props.C182.path_stats_none",
    "Verif.Props.C182.varints",
    "Verif.Props.C182.read_varint",
    "Verif.Props.C182.converted"
   ],
   "note": "Codes, return values, writes through pointers, addresses and callbacks proved for every result of the library. Refuted: the largest RTT of a path is never written; quiche_socket_addr_iter_next writes 4 of the 8 bytes that quiche.h declares; the timeout in milliseconds is rounded down and that in nanoseconds wraps around; too small a buffer for a header is reported as DONE; one HTTP/3 error code has no name in quiche.h. Pointers, ownership and struct layout are not modelled."
  },
  {
   "property": "C183",
   "status": "partial",
   "theorems": [
    "Verif.Props.C183.received",
    "Verif.Props.C183.nothing",
    "Verif.Props.C183.kept_partial",
    "Verif.Props.C183.kept_false",
    "Verif.Props.C183.cut_false",
    "Verif.Props.C183.woken_partial",
    "Verif.Props.C183.woken_false",
    "Verif.Props.C183.sent",
    "Verif.Props.C183.send_many",
    "Verif.Props.C183.refused",
    "Verif.Props.C183.pushed",
    "Verif.Props.C183.pushed_nothing",
    "Verif.Props.C183.pushed_false",
    "Verif.Props.C183.recv_many_partial",
    "Verif.Props.C183.recv_many_false"
   ],
   "note": "Order, number and contents of received and sent datagrams proved for all queues and lists, against a model of the kernel's recvmmsg and sendmmsg. Refuted: an error behind a multiple of sixteen datagrams is taken and never reported, and one behind any number when datagrams are pushed to a vector; a datagram that is cut is reported like a whole one; a call without buffers returns the thread's last error, and if that was EAGAIN the reader is put to sleep though a datagram waits; the portable receive loop loses the datagrams read before an error."
  },
  {
   "property": "C184",
   "status": "partial",
   "theorems": [
    "Verif.Props.C184.meaning_partial",
    "Verif.Props.C184.refused",
    "Verif.Props.C184.bounded",
    "Verif.Props.C184.ignored_false",
    "Verif.Props.C184.inner_false",
    "Verif.Props.C184.round_trip",
    "Verif.Props.C184.last_update",
    "Verif.Props.C184.scheduled",
    "Verif.Props.C184.end_to_end"
   ],
   "note": "Reading of correct values, what is refused, round trip, last update and order of scheduling proved, for every parser of structured fields (sfv is not in the repository; for the round trip it must read the sixteen values that are sent as RFC 8941 says). Refuted: values out of range or of the wrong type are not ignored, as the RFC wants, but give urgency 7 or refuse the whole value; an inner list as `i` is not refused, though the documentation says so."
  },
  {
   "property": "C185",
   "status": "partial",
   "theorems": [
    "Verif.Props.C185.counted",
    "Verif.Props.C185.conserved",
    "Verif.Props.C185.proportional",
    "Verif.Props.C185.whole_flight",
    "Verif.Props.C185.catch_up",
    "Verif.Props.C185.progress",
    "Verif.Props.C185.window_false",
    "Verif.Props.C185.after_false"
   ],
   "note": "The bounds of RFC 6937 are proved for the controller's counters over all sequences. Refuted for the connection: the allowance is added to what the window leaves, so that in recovery with nothing in flight nearly twice the threshold may be sent, and it is kept after recovery."
  },
  {
   "property": "C186",
   "status": "partial",
   "theorems": [
    "Verif.Props.C186.no_panic",
    "Verif.Props.C186.kept",
    "Verif.Props.C186.not_before",
    "Verif.Props.C186.closed_in_time",
    "Verif.Props.C186.not_set",
    "Verif.Props.C186.late_false",
    "Verif.Props.C186.busy_false"
   ],
   "note": "Refuted: if the handshake took longer than the time, the work ends without an error, the connection is not closed and the controller is told nothing; and the timer is looked at only when no packet is waiting, so that a peer that keeps sending is never closed."
  },
  {
   "property": "C187",
   "status": "partial",
   "theorems": [
    "Verif.Props.C187.reserved",
    "Verif.Props.C187.reserved_wrapping",
    "Verif.Props.C187.reserved_panics",
    "Verif.Props.C187.reserved_eleven",
    "Verif.Props.C187.reserved_false",
    "Verif.Props.C187.kept",
    "Verif.Props.C187.all_kept",
    "Verif.Props.C187.fit_false",
    "Verif.Props.C187.mask_iff",
    "Verif.Props.C187.version_reserved",
    "Verif.Props.C187.version_partial",
    "Verif.Props.C187.version_refused",
    "Verif.Props.C187.version_false",
    "Verif.Props.C187.version_zero_false"
   ],
   "note": "Refuted: asking whether an unknown parameter below 27 is reserved (0x11, version_information, is one) overflows; a parameter that just fits is not kept; configurations can be made for versions that are not reserved, version 0 among them, whose packets are Version Negotiation packets."
  },
  {
   "property": "C188",
   "status": "partial",
   "theorems": [
    "Verif.Props.C188.counted",
    "Verif.Props.C188.fate",
    "Verif.Props.C188.sizes",
    "Verif.Props.C188.mistaken",
    "Verif.Props.C188.mistaken_partial",
    "Verif.Props.C188.path_fate",
    "Verif.Props.C188.sums_le",
    "Verif.Props.C188.sums",
    "Verif.Props.C188.path_bytes_zero",
    "Verif.Props.C188.path_bytes_false",
    "Verif.Props.C188.spurious_sum_false",
    "Verif.Props.C188.spurious_false"
   ],
   "note": "Refuted: the bytes lost that a path reports are always zero; the connection does not count packets lost by mistake when the ACK frame acknowledges nothing else; and probes for the path MTU are counted when lost by mistake but not when lost, so that the former can be more than the latter."
  },
  {
   "property": "C189",
   "status": "partial",
   "theorems": [
    "Verif.Props.C189.dst4",
    "Verif.Props.C189.dst6",
    "Verif.Props.C189.dst6_partial",
    "Verif.Props.C189.told",
    "Verif.Props.C189.reply4",
    "Verif.Props.C189.reply6",
    "Verif.Props.C189.drops_exact",
    "Verif.Props.C189.drops_partial",
    "Verif.Props.C189.drops_false",
    "Verif.Props.C189.room4",
    "Verif.Props.C189.room6_partial",
    "Verif.Props.C189.room46_partial",
    "Verif.Props.C189.room_false",
    "Verif.Props.C189.batch_false",
    "Verif.Props.C189.scope_false"
   ],
   "note": "Refuted: the scope of an IPv6 destination is byte-swapped on little-endian hosts, so that the server's own link-local address is taken for another; with all options on, the messages of an IPv6 socket (192 bytes) do not fit into the 184 provided, upon which all are ignored and datagrams put together are read as one; a count of drops that wraps is a panic where overflows are checked."
  },
  {
   "property": "C19",
   "status": "proved",
   "theorems": [
    "Verif.C19.complete_iff"
   ],
   "note": "Abandoned streams count as complete by design; for an empty stream an empty frame must be acknowledged."
  },
  {
   "property": "C190",
   "status": "partial",
   "theorems": [
    "Verif.Props.C190.finished_final",
    "Verif.Props.C190.closed_final",
    "Verif.Props.C190.finished_silent",
    "Verif.Props.C190.closed_silent",
    "Verif.Props.C190.finished_needs_end",
    "Verif.Props.C190.closed_known",
    "Verif.Props.C190.never_opened_false",
    "Verif.Props.C190.own_uni_false"
   ],
   "note": "Finality is proved for streams that exist or existed. Refuted: a stream that was never opened is reported as finished, and data arrives on it later; a stream of one's own in one direction is reported as unfinished as long as it exists. Both follow the code, not its documentation."
  },
  {
   "property": "C191",
   "status": "partial",
   "theorems": [
    "Verif.Props.C191.asked",
    "Verif.Props.C191.choice",
    "Verif.Props.C191.listed",
    "Verif.Props.C191.listed_once",
    "Verif.Props.C191.listed_used",
    "Verif.Props.C191.nothing_missed",
    "Verif.Props.C191.served_false",
    "Verif.Props.C191.waits_for_ever",
    "Verif.Props.C191.served_partial"
   ],
   "note": "All but the last sentence is proved. Refuted: a call without addresses sends nothing while the first path to be probed belongs to an unverified address without credit, although the active path could send; this does not end by itself."
  },
  {
   "property": "C192",
   "status": "partial",
   "theorems": [
    "Verif.Props.C192.next",
    "Verif.Props.C192.kept",
    "Verif.Props.C192.not_forgotten",
    "Verif.Props.C192.probe",
    "Verif.Props.C192.ping_within",
    "Verif.Props.C192.one_in_25",
    "Verif.Props.C192.no_window_false",
    "Verif.Props.C192.moved_false"
   ],
   "note": "Proved where buffer and window have room for one more byte. Refuted: with a full congestion window, rows of packets that elicit nothing have no bound; and if the active path changes after the request, the next call without addresses sends nothing."
  },
  {
   "property": "C193",
   "status": "partial",
   "theorems": [
    "Verif.Props.C193.below",
    "Verif.Props.C193.even",
    "Verif.Props.C193.exchange",
    "Verif.Props.C193.accepted",
    "Verif.Props.C193.ends",
    "Verif.Props.C193.panics",
    "Verif.Props.C193.distance",
    "Verif.Props.C193.distance_all",
    "Verif.Props.C193.grease_reserved",
    "Verif.Props.C193.grease_all_partial",
    "Verif.Props.C193.grease_all_false"
   ],
   "note": "Everything but the last clause is proved. Refuted: the largest reserved identifier that can be encoded is never drawn, for the bound excludes it; all others are."
  },
  {
   "property": "C194",
   "status": "partial",
   "theorems": [
    "Verif.Props.C194.total",
    "Verif.Props.C194.stream_max",
    "Verif.Props.C194.curve",
    "Verif.Props.C194.told",
    "Verif.Props.C194.points",
    "Verif.Props.C194.points_moved",
    "Verif.Props.C194.reads_log",
    "Verif.Props.C194.moved_partial",
    "Verif.Props.C194.report_rx",
    "Verif.Props.C194.report_rx_partial",
    "Verif.Props.C194.report_tx",
    "Verif.Props.C194.dropped_false",
    "Verif.Props.C194.initial_false",
    "Verif.Props.C194.first_partial",
    "Verif.Props.C194.first_false",
    "Verif.Props.C194.foreign_false",
    "Verif.Props.C194.report_false"
   ],
   "note": "Sums, curves and points are proved for all logs. Refuted: the total dropped includes the bytes before those dropped; the point for the initial limit of a bidirectional stream that the other side started shows the wrong parameter; data moved to the user or the network panics; the report on received MAX_DATA looks at MAX_STREAM_DATA to see if there is any, so that it panics or says there is none; the one on sent MAX_DATA panics if there is none. The bytes moved are right where pieces follow without gaps."
  },
  {
   "property": "C195",
   "status": "partial",
   "theorems": [
    "Verif.Props.C195.as_made_partial",
    "Verif.Props.C195.burst_kept",
    "Verif.Props.C195.in_buffer",
    "Verif.Props.C195.floor",
    "Verif.Props.C195.goes_on_partial",
    "Verif.Props.C195.round_again",
    "Verif.Props.C195.round_again_only",
    "Verif.Props.C195.served_partial",
    "Verif.Props.C195.not_served",
    "Verif.Props.C195.starved_false",
    "Verif.Props.C195.destination_false",
    "Verif.Props.C195.probe_false",
    "Verif.Props.C195.blocked_false",
    "Verif.Props.C195.quantum_false"
   ],
   "note": "Bursts and the buffer are proved. Refuted: all packets of a burst go to the destination of the first; a packet larger than the size known, such as a probe of the path MTU, is cut in two; what is left when the socket blocks is dropped; a quantum below one datagram sends nothing; a connection that fills its bursts starves those after it. Proved where packets are no larger than the size known and have one destination, and where no connection before fills its burst."
  },
  {
   "property": "C196",
   "status": "partial",
   "theorems": [
    "Verif.Props.C196.inside",
    "Verif.Props.C196.inside09",
    "Verif.Props.C196.reads_inside",
    "Verif.Props.C196.sends",
    "Verif.Props.C196.directory",
    "Verif.Props.C196.directory_false",
    "Verif.Props.C196.once",
    "Verif.Props.C196.answer",
    "Verif.Props.C196.rejects",
    "Verif.Props.C196.no_panic_partial",
    "Verif.Props.C196.panic_false"
   ],
   "note": "That reads stay below the root is proved for all requests. Refuted: over HTTP/0.9 a path that ends in a slash names the directory, not its index; a request with host and without :authority makes the server panic, as does one for 2^63 bytes. There is no panic where fields are UTF-8, :authority is there, the URL can be parsed and numbers are below 2^63."
  },
  {
   "property": "C20",
   "status": "proved",
   "theorems": [
    "Verif.C20.window_discipline",
    "Verif.C20.low_credit_is_renewed",
    "Verif.C20.no_underflow"
   ],
   "note": "Stream-level controllers: limit monotonicity also in C12.limit_monotone."
  },
  {
   "property": "C21",
   "status": "partial",
   "theorems": [
    "Verif.C21.within_limit_partial",
    "Verif.C21.sent_le_accepted",
    "Verif.C21.exceeds_limit"
   ],
   "note": "False for send capacity factors above one: writes beyond the peer's connection limit are accepted (witness). Proved for all histories with a factor of at most one; the bytes actually sent never exceed those accepted."
  },
  {
   "property": "C22",
   "status": "proved",
   "theorems": [
    "Verif.C22.within_limit",
    "Verif.C22.stream_beyond_limit",
    "Verif.C22.reset_beyond_limit"
   ],
   "note": "Sum over any set of streams, collected ones included."
  },
  {
   "property": "C23",
   "status": "partial",
   "theorems": [
    "Verif.C23.consumed_le_charged",
    "Verif.C23.consumed_eq_charged_partial",
    "Verif.C23.credit_leaks"
   ],
   "note": "First half proved for all histories. Second half false when the peer sends empty non-FIN frames beyond the highest offset (witness); proved for all other histories."
  },
  {
   "property": "C24",
   "status": "proved",
   "theorems": [
    "Verif.C24.within_limit",
    "Verif.C24.peer_beyond_limit",
    "Verif.C24.local_beyond_limit",
    "Verif.C24.wrong_initiator"
   ],
   "note": ""
  },
  {
   "property": "C25",
   "status": "proved",
   "theorems": [
    "Verif.C25.stays_gone",
    "Verif.C25.gone_is_silent",
    "Verif.C25.later_silent"
   ],
   "note": ""
  },
  {
   "property": "C26",
   "status": "proved",
   "theorems": [
    "Verif.C26.next_limit",
    "Verif.C26.advertised",
    "Verif.C26.monotone",
    "Verif.C26.in_time"
   ],
   "note": ""
  },
  {
   "property": "C27",
   "status": "proved",
   "theorems": [
    "Verif.C27.sending",
    "Verif.C27.reading",
    "Verif.C27.writing",
    "Verif.C27.tree"
   ],
   "note": "Except streams skipped because they are stopped or their frame header does not fit."
  },
  {
   "property": "C28",
   "status": "proved",
   "theorems": [
    "Verif.C28.round_robin"
   ],
   "note": "At least one service in between; unless the other stream is stopped or its frame header does not fit the packet."
  },
  {
   "property": "C29",
   "status": "proved",
   "theorems": [
    "Verif.C29.written",
    "Verif.C29.round_trip",
    "Verif.C29.padding_absorbs",
    "Verif.C29.narrow_length",
    "Verif.C29.long_stream_cut"
   ],
   "note": "All frame types. Sameness compares the ranges of ACK frames, not the representation of the range set. long_stream_cut shows the data limit is needed."
  },
  {
   "property": "C30",
   "status": "proved",
   "theorems": [
    "Verif.C30.exact_size",
    "Verif.C30.header_size",
    "Verif.C30.header_as_frame"
   ],
   "note": ""
  },
  {
   "property": "C31",
   "status": "proved",
   "theorems": [
    "Verif.C31.initial_handshake",
    "Verif.C31.zero_rtt",
    "Verif.C31.rejected_iff"
   ],
   "note": ""
  },
  {
   "property": "C32",
   "status": "proved",
   "theorems": [
    "Verif.C32.same_set",
    "Verif.C32.as_described",
    "Verif.C32.underflow_rejected"
   ],
   "note": "Described ranges are computed over the integers by a separate specification (Frame/Spec.lean)."
  },
  {
   "property": "C33",
   "status": "proved",
   "theorems": [
    "Verif.C33.written",
    "Verif.C33.round_trip",
    "Verif.C33.long_cid_rejected"
   ],
   "note": "All protected types and Retry; Version Negotiation is C71."
  },
  {
   "property": "C34",
   "status": "proved",
   "theorems": [
    "Verif.C34.recovered",
    "Verif.C34.nearest",
    "Verif.C34.sendable"
   ],
   "note": ""
  },
  {
   "property": "C35",
   "status": "proved",
   "theorems": [
    "Verif.C35.processed_once",
    "Verif.C35.fresh_accepted",
    "Verif.C35.at_most_once",
    "Verif.C35.duplicates_refused",
    "Verif.C35.filter_alone"
   ],
   "note": "On a connection, where decoded numbers cannot jump by 2^32 or more; filter_alone shows that the filter taken alone forgets numbers on such a jump."
  },
  {
   "property": "C36",
   "status": "proved",
   "theorems": [
    "Verif.C36.undone",
    "Verif.C36.rest_in_the_clear"
   ],
   "note": ""
  },
  {
   "property": "C37",
   "status": "partial",
   "theorems": [
    "Verif.C37.exact",
    "Verif.C37.no_panic",
    "Verif.C37.rejected",
    "Verif.C37.written",
    "Verif.C37.round_trip_partial",
    "Verif.C37.zero_exponent",
    "Verif.C37.zero_ack_delay",
    "Verif.C37.configured_no_panic",
    "Verif.C37.configured_refused",
    "Verif.C37.buffer_too_small"
   ],
   "note": "Decoding is characterised completely. The round trip is false for an acknowledgement delay exponent or a maximal acknowledgement delay of zero (witnesses), proved otherwise."
  },
  {
   "property": "C38",
   "status": "proved",
   "theorems": [
    "Verif.Props.C38.outstanding_le",
    "Verif.Props.C38.outstanding_nodup",
    "Verif.Props.C38.issue_surplus",
    "Verif.Props.C38.stored_le",
    "Verif.Props.C38.frame_surplus"
   ],
   "note": "The limit of the peer is the largest it gave (it may not lower it)."
  },
  {
   "property": "C39",
   "status": "partial",
   "theorems": [
    "Verif.Props.C39.malformed_frame",
    "Verif.Props.C39.malformed_retransmission",
    "Verif.Props.C39.malformed_after_failure",
    "Verif.Props.C39.wellformed_partial"
   ],
   "note": "False: witnesses; holds if new_scid is never allowed to retire."
  },
  {
   "property": "C40",
   "status": "partial",
   "theorems": [
    "Verif.Props.C40.repeat_stored_partial",
    "Verif.Props.C40.repeat_partial",
    "Verif.Props.C40.inconsistent",
    "Verif.Props.C40.none_below",
    "Verif.Props.C40.below_retired",
    "Verif.Props.C40.raise_retires",
    "Verif.Props.C40.announced_once",
    "Verif.Props.C40.announced_again",
    "Verif.Props.C40.resurrected",
    "Verif.Props.C40.repeat_error",
    "Verif.Props.C40.retirement_ignored"
   ],
   "note": "False for numbers already retired: witnesses announced_again, resurrected, repeat_error, retirement_ignored."
  },
  {
   "property": "C41",
   "status": "proved",
   "theorems": [
    "Verif.Props.C41.validated",
    "Verif.Props.C41.becomes",
    "Verif.Props.C41.outstanding",
    "Verif.Props.C41.unsolicited",
    "Verif.Props.C41.once"
   ],
   "note": "Of all paths but that of the handshake, which counts as validated from the start. The largest challenge answered is kept when validation fails later, so a path may become validated again by a response to a smaller challenge."
  },
  {
   "property": "C42",
   "status": "partial",
   "theorems": [
    "Verif.Props.C42.limit_false",
    "Verif.Props.C42.early_false",
    "Verif.Props.C42.credit_partial",
    "Verif.Props.C42.sent_partial",
    "Verif.Props.C42.limit_partial",
    "Verif.Props.C42.pad_small",
    "Verif.Props.C42.verified_by"
   ],
   "note": "The claim is false: padding after Initial packets is not charged, and 0-RTT packets kept until their key is known are credited twice. sent_partial bounds what is sent exactly up to these two terms; limit_partial is the claim for histories without Initial packets sent and without 0-RTT; verified_by says what ends the limit."
  },
  {
   "property": "C43",
   "status": "proved",
   "theorems": [
    "Verif.C43.safe",
    "Verif.C43.at_rest",
    "Verif.C43.finds",
    "Verif.C43.revalidates"
   ],
   "note": "finds also covers networks that lose probes of working sizes, as long as not all of the configured number of tries in a row are lost."
  },
  {
   "property": "C44",
   "status": "proved",
   "theorems": [
    "Verif.C44.push_spec",
    "Verif.C44.pop_spec",
    "Verif.C44.purge_spec",
    "Verif.C44.pack_spec",
    "Verif.C44.send_queue",
    "Verif.C44.nothing_lost",
    "Verif.C44.frame_spec",
    "Verif.C44.recv_queue",
    "Verif.C44.keeps_latest"
   ],
   "note": ""
  },
  {
   "property": "C45",
   "status": "proved",
   "theorems": [
    "Verif.C45.sound",
    "Verif.C45.fresh",
    "Verif.C45.best_of_recent",
    "Verif.C45.order_min",
    "Verif.C45.order_max"
   ],
   "note": "For any division by 2 and 4 (the code uses floating point there)."
  },
  {
   "property": "C46",
   "status": "partial",
   "theorems": [
    "Verif.Props.C46.bytes_partial",
    "Verif.Props.C46.count_exact",
    "Verif.Props.C46.count_nonneg",
    "Verif.Props.C46.bytes_eliciting_partial",
    "Verif.Props.C46.bytes_false"
   ],
   "note": "LegacyRecovery with an arbitrary congestion controller. The claim is false for padded packets that are not ack-eliciting, which count with size 0, and after an acknowledged skipped number (the connection closes then). With the recorded size, or if all packets in flight are ack-eliciting, it holds in every history; the number of packets in flight is exact."
  },
  {
   "property": "C47",
   "status": "partial",
   "theorems": [
    "Verif.Props.C47.once",
    "Verif.Props.C47.frames_sent",
    "Verif.Props.C47.acked_queue",
    "Verif.Props.C47.lost_queue",
    "Verif.Props.C47.thresh_bounds",
    "Verif.Props.C47.lost_only_partial",
    "Verif.Props.C47.lost_unacked_false"
   ],
   "note": "Fates are decided once in every history. That lost packets lie below the largest acknowledged is false for packet 0 when a path change triggers loss detection with nothing acknowledged; otherwise it holds."
  },
  {
   "property": "C48",
   "status": "partial",
   "theorems": [
    "Verif.Props.C48.earliest_false",
    "Verif.Props.C48.no_loss_declared",
    "Verif.Props.C48.exact",
    "Verif.Props.C48.earliest_partial",
    "Verif.Props.C48.none_pending"
   ],
   "note": "The claim is false: a space without a pending loss time removes the times of the spaces before it (None < Some). exact says what is computed; earliest_partial: right if every space after a pending one is pending."
  },
  {
   "property": "C49",
   "status": "proved",
   "theorems": [
    "Verif.Props.C49.effective",
    "Verif.Props.C49.at_least_three_ptos",
    "Verif.Props.C49.deadline_exact",
    "Verif.Props.C49.closes_when_due",
    "Verif.Props.C49.timed_out_iff",
    "Verif.Props.C49.one_restart"
   ],
   "note": "TLS, packet processing, paths and loss detection are arbitrary inputs."
  },
  {
   "property": "C50",
   "status": "proved",
   "theorems": [
    "Verif.Props.C50.roundtrip",
    "Verif.Props.C50.same_settings",
    "Verif.Props.C50.raw_ignored"
   ],
   "note": "SETTINGS frames are compared up to what a peer can see: grease and additional settings come back as one list."
  },
  {
   "property": "C51",
   "status": "partial",
   "theorems": [
    "Verif.Props.C51.roundtrip",
    "Verif.Props.C51.complete",
    "Verif.Props.C51.read_partial",
    "Verif.Props.C51.unique",
    "Verif.Props.C51.misread"
   ],
   "note": "The round trip holds; the converse is false for integers of 2^64 and more, which may be read modulo 2^64 (misread)."
  },
  {
   "property": "C52",
   "status": "proved",
   "theorems": [
    "Verif.Props.C52.roundtrip"
   ],
   "note": ""
  },
  {
   "property": "C53",
   "status": "proved",
   "theorems": [
    "Verif.Props.C53.limit",
    "Verif.Props.C53.count",
    "Verif.Props.C53.no_panic",
    "Verif.Props.C53.exact"
   ],
   "note": ""
  },
  {
   "property": "C54",
   "status": "proved",
   "theorems": [
    "Verif.Props.C54.request",
    "Verif.Props.C54.control"
   ],
   "note": ""
  },
  {
   "property": "C55",
   "status": "partial",
   "theorems": [
    "Verif.C55.end_visible_partial",
    "Verif.C55.late_fin_invisible",
    "Verif.C55.late_fin_lost"
   ],
   "note": "False in general: FIN on a duplicate frame lying below the read position is swallowed (witness and general theorem). Proved for all other histories."
  },
  {
   "property": "C56",
   "status": "partial",
   "theorems": [
    "Verif.C56.no_panic_partial",
    "Verif.C56.open_connection_no_panic",
    "Verif.C56.shutdown_after_bad_reset_panics"
   ],
   "note": "False in general: shutdown after a RESET_STREAM refused for flow control underflows (witness). Proved for all other histories."
  },
  {
   "property": "C57",
   "status": "proved",
   "theorems": [
    "Verif.C57.readable_len_exact"
   ],
   "note": "Unless a RESET_STREAM was refused for flow control (connection is closing then)."
  },
  {
   "property": "C58",
   "status": "partial",
   "theorems": [
    "Verif.C58.complete_fin_acked_partial",
    "Verif.C58.complete_without_fin"
   ],
   "note": "False in general: a stream finished by an empty write is complete when its data is acknowledged, though FIN was never sent (witness). Proved when the finishing write brings data."
  },
  {
   "property": "C59",
   "status": "partial",
   "theorems": [
    "Verif.C59.reported_size",
    "Verif.C59.after_cut_empty",
    "Verif.C59.silent_after_stop_partial",
    "Verif.C59.frame_after_shutdown"
   ],
   "note": "First half proved. Second half false for streams shut down by the application: an empty STREAM frame with FIN follows the reset (witness); proved after STOP_SENDING."
  },
  {
   "property": "C60",
   "status": "proved",
   "theorems": [
    "Verif.C60.no_panic",
    "Verif.C60.buffered_exact"
   ],
   "note": ""
  },
  {
   "property": "C61",
   "status": "partial",
   "theorems": [
    "Verif.C61.sends_partial",
    "Verif.C61.queued",
    "Verif.C61.waiting",
    "Verif.C61.stranded"
   ],
   "note": "False in general: when the frame header does not fit the room left, the stream is taken out of the flush queue and nothing puts it back (witness, in which later writes do not help either). Proved for all histories in which every packet asked for stream data has at most 12 or at least 19 bytes of room."
  },
  {
   "property": "C62",
   "status": "partial",
   "theorems": [
    "Verif.C62.fin_with_end_partial",
    "Verif.C62.fin_never_sent"
   ],
   "note": "False in general: an empty finishing write between a loss and its retransmission is never announced and the stream is collected (witness). Proved: FIN is set on exactly the frames reaching the final offset."
  },
  {
   "property": "C63",
   "status": "partial",
   "theorems": [
    "Verif.C63.no_panic_partial",
    "Verif.C63.buffered_exact",
    "Verif.C63.reduced_limit_panics",
    "Verif.C63.factor_panics",
    "Verif.C63.closing_panics"
   ],
   "note": "False in three corner cases (witnesses): connection limit reduced by the handshake's parameters, send capacity factor above one, API calls on a connection being closed. Proved for all other histories."
  },
  {
   "property": "C64",
   "status": "partial",
   "theorems": [
    "Verif.C64.read_to_end_partial",
    "Verif.C64.stream_leaks"
   ],
   "note": "False after stream_shutdown(Read): the stream is never forgotten (witness). Proved for streams read to the end."
  },
  {
   "property": "C65",
   "status": "partial",
   "theorems": [
    "Verif.C65.reported_is_writable",
    "Verif.C65.reported_above_partial",
    "Verif.C65.exact_capacity_not_reported"
   ],
   "note": "Soundness proved. The other direction fails when the capacity equals the watermark exactly (witness); proved when it exceeds it."
  },
  {
   "property": "C66",
   "status": "proved",
   "theorems": [
    "Verif.C66.decoded_is_encoded",
    "Verif.C66.decode_injective"
   ],
   "note": ""
  },
  {
   "property": "C67",
   "status": "proved",
   "theorems": [
    "Verif.C67.sent_within",
    "Verif.C67.received_within",
    "Verif.C67.advertised_mono",
    "Verif.C67.beyond_refused",
    "Verif.C67.within_accepted"
   ],
   "note": "Connection level, all histories. The connection-limit side of within_accepted is stated with the bytes charged so far."
  },
  {
   "property": "C68",
   "status": "proved",
   "theorems": [
    "Verif.C68.never_panics",
    "Verif.C68.only_wire_format",
    "Verif.C68.all_wire_format"
   ],
   "note": "The wire format is specified apart from the decoder in Frame/Spec.lean (OnWire)."
  },
  {
   "property": "C69",
   "status": "proved",
   "theorems": [
    "Verif.C69.exact",
    "Verif.C69.header_no_panic",
    "Verif.C69.unpack_no_panic"
   ],
   "note": "Wire format specified apart from the parser in Packet/Spec.lean (HdrWire)."
  },
  {
   "property": "C70",
   "status": "proved",
   "theorems": [
    "Verif.C70.delivered"
   ],
   "note": "AEAD and mask function are parameters; of the AEAD only correctness (open after seal, tag length) is assumed (Keys.Sound). No key update."
  },
  {
   "property": "C71",
   "status": "proved",
   "theorems": [
    "Verif.C71.version_negotiation",
    "Verif.C71.retry_packet",
    "Verif.C71.retry_works"
   ],
   "note": "The tag function is a parameter."
  },
  {
   "property": "C72",
   "status": "proved",
   "theorems": [
    "Verif.C72.nonces_distinct",
    "Verif.C72.nonce_injective",
    "Verif.C72.increasing"
   ],
   "note": "Packet numbers below 2^64."
  },
  {
   "property": "C73",
   "status": "partial",
   "theorems": [
    "Verif.C73.negotiation",
    "Verif.C73.retry_tag",
    "Verif.C73.at_most_once",
    "Verif.C73.not_late_partial",
    "Verif.C73.late_retry"
   ],
   "note": "All but one part proved. The last sentence is false for Retry packets: they are acted on after packets of the server were processed (late_retry, for every client state without an earlier Retry)."
  },
  {
   "property": "C74",
   "status": "proved",
   "theorems": [
    "Verif.C74.never_sent",
    "Verif.C74.detected",
    "Verif.C74.in_force",
    "Verif.C74.no_panic",
    "Verif.C74.armed",
    "Verif.C74.counts_down",
    "Verif.C74.skips"
   ],
   "note": "The rest of loss recovery is abstracted: any subset of the packets sent and covered may be newly acknowledged."
  },
  {
   "property": "C75",
   "status": "partial",
   "theorems": [
    "Verif.C75.beyond_refused_partial",
    "Verif.C75.within_accepted",
    "Verif.C75.nothing_sent"
   ],
   "note": "False in spaces where nothing was sent yet: any ACK frame is accepted there (nothing_sent). Proved once something was sent."
  },
  {
   "property": "C76",
   "status": "partial",
   "theorems": [
    "Verif.C76.no_retry_partial",
    "Verif.C76.with_retry",
    "Verif.C76.by_server",
    "Verif.C76.accepted",
    "Verif.C76.unexpected_retry_id",
    "Verif.C76.empty_not_checked",
    "Verif.C76.not_authenticated"
   ],
   "note": "False in that a client accepts the source ID of a Retry packet although there was none, and that empty parameters are not checked at all (witnesses). All else proved."
  },
  {
   "property": "C77",
   "status": "partial",
   "theorems": [
    "Verif.Props.C77.stuck_for_ever",
    "Verif.Props.C77.spurious_loss_blocks",
    "Verif.Props.C77.late_loss_blocks",
    "Verif.Props.C77.guess_blocks",
    "Verif.Props.C77.never_fails_partial"
   ],
   "note": "False: witnesses, after which every attempt to build a packet fails; holds for histories in which no retired number is waiting."
  },
  {
   "property": "C78",
   "status": "partial",
   "theorems": [
    "Verif.Props.C78.accepted_partial",
    "Verif.Props.C78.usable_partial",
    "Verif.Props.C78.delayed_repeat_closes",
    "Verif.Props.C78.repeated_retire_closes",
    "Verif.Props.C78.refused_calls_close",
    "Verif.Props.C78.malformed_closes"
   ],
   "note": "False: four witnesses. Proved for two endpoints and any network as long as the receiving application retires nothing itself."
  },
  {
   "property": "C79",
   "status": "proved",
   "theorems": [
    "Verif.Props.C79.unissued",
    "Verif.Props.C79.own_packet",
    "Verif.Props.C79.effect",
    "Verif.Props.C79.told",
    "Verif.Props.C79.told_complete"
   ],
   "note": ""
  },
  {
   "property": "C80",
   "status": "proved",
   "theorems": [
    "Verif.Props.C80.one_path",
    "Verif.Props.C80.found",
    "Verif.Props.C80.bounded",
    "Verif.Props.C80.links",
    "Verif.Props.C80.room"
   ],
   "note": ""
  },
  {
   "property": "C81",
   "status": "partial",
   "theorems": [
    "Verif.Props.C81.can_send_false",
    "Verif.Props.C81.client_false",
    "Verif.Props.C81.stuck",
    "Verif.Props.C81.stuck_for_ever",
    "Verif.Props.C81.can_send_partial",
    "Verif.Props.C81.can_send_quiet_partial"
   ],
   "note": "The claim is false: after the address of a client changes, the server uses the destination connection ID on both paths, and when it is then replaced only the old path is told; and a call of retire_dcid that fails because too many IDs wait to be retired has removed the ID all the same. Proved for clients and for servers with disable_dcid_reuse, whatever either side retires, as long as no such call fails that way, and for every connection as long as nothing is retired."
  },
  {
   "property": "C82",
   "status": "partial",
   "theorems": [
    "Verif.Props.C82.one_false",
    "Verif.Props.C82.only_false",
    "Verif.Props.C82.rebound_false",
    "Verif.Props.C82.peer_false",
    "Verif.Props.C82.failed_false",
    "Verif.Props.C82.migrate_false",
    "Verif.Props.C82.no_active_closes",
    "Verif.Props.C82.one_partial"
   ],
   "note": "The claim is false: retire_dcid may leave no active path, so may the peer's retirements, a rebinding with disable_dcid_reuse, packets on a path whose validation failed, and a migration to such a path (which is granted); and there may be two active paths later. Without an active path the next packet closes the connection. Proved for clients and servers without disable_dcid_reuse as long as nothing is retired and failed paths are not used again."
  },
  {
   "property": "C83",
   "status": "partial",
   "theorems": [
    "Verif.Props.C83.reports_false",
    "Verif.Props.C83.reported_partial",
    "Verif.Props.C83.first_reported",
    "Verif.Props.C83.no_retry"
   ],
   "note": "The claim is false for the second failure of a path; the first one is reported, and exactly those never reported before are."
  },
  {
   "property": "C84",
   "status": "partial",
   "theorems": [
    "Verif.Props.C84.unknown_closes",
    "Verif.Props.C84.dropped_false"
   ],
   "note": "The claim is false: every such packet closes the connection."
  },
  {
   "property": "C85",
   "status": "partial",
   "theorems": [
    "Verif.Props.C85.armed_false",
    "Verif.Props.C85.armed_partial",
    "Verif.Props.C85.kept",
    "Verif.Props.C85.always_armed_partial"
   ],
   "note": "The claim is false: a padded 1-RTT packet with only an ACK clears the timer while Handshake data is in flight. It holds when all packets in flight are ack-eliciting and the handshake is completed or an Initial or Handshake packet is in flight."
  },
  {
   "property": "C86",
   "status": "proved",
   "theorems": [
    "Verif.Props.C86.probe_time",
    "Verif.Props.C86.count",
    "Verif.Props.C86.backoff",
    "Verif.Props.C86.period_doubles",
    "Verif.Props.C86.probes",
    "Verif.Props.C86.probes_run",
    "Verif.Props.C86.probe_frames",
    "Verif.Props.C86.discarded"
   ],
   "note": "For spaces whose packets in flight are ack-eliciting (the exception is C85). The factor saturates at 2^32 - 1."
  },
  {
   "property": "C87",
   "status": "proved",
   "theorems": [
    "Verif.Props.C87.within",
    "Verif.Props.C87.max_exact",
    "Verif.Props.C87.min_is_filter",
    "Verif.Props.C87.sampled",
    "Verif.Props.C87.only_acks"
   ],
   "note": "Durations are whole nanoseconds. The float divisions in the window filter are arbitrary functions."
  },
  {
   "property": "C88",
   "status": "proved",
   "theorems": [
    "Verif.Props.C88.complete_after_ack",
    "Verif.Props.C88.complete_after_timeout",
    "Verif.Props.C88.detectLost_complete"
   ],
   "note": "Every history in which packet numbers rise and send times do not go back."
  },
  {
   "property": "C89",
   "status": "partial",
   "theorems": [
    "Verif.Props.C89.refused_false",
    "Verif.Props.C89.evaded",
    "Verif.Props.C89.recovery_refuses"
   ],
   "note": "The claim is false: after an ACK of a single later packet the skipped number is no longer watched, and a second ACK may cover it (evaded, for every state). While it is watched such ACKs are refused (also C74)."
  },
  {
   "property": "C90",
   "status": "proved",
   "theorems": [
    "Verif.Props.C90.final",
    "Verif.Props.C90.silent",
    "Verif.Props.C90.deaf"
   ],
   "note": "A stateless reset closes a draining connection at once (deaf)."
  },
  {
   "property": "C91",
   "status": "proved",
   "theorems": [
    "Verif.Props.C91.once",
    "Verif.Props.C91.nothing_else",
    "Verif.Props.C91.keyed"
   ],
   "note": ""
  },
  {
   "property": "C92",
   "status": "proved",
   "theorems": [
    "Verif.Props.C92.starts",
    "Verif.Props.C92.lasts"
   ],
   "note": "The probe timeout is that of the path at that moment."
  },
  {
   "property": "C93",
   "status": "partial",
   "theorems": [
    "Verif.Props.C93.told",
    "Verif.Props.C93.told_confirmed",
    "Verif.Props.C93.told_false",
    "Verif.Props.C93.client_example",
    "Verif.Props.C93.never_told_app",
    "Verif.Props.C93.never_told_early",
    "Verif.Props.C93.never_told_long",
    "Verif.Props.C93.panics",
    "Verif.Props.C93.hangs"
   ],
   "note": "The claim is false: an application close while handshake data waits or during 0-RTT is never sent, nor is a reason longer than the packets; an error code without encoding panics. It holds with a confirmed handshake and enough room (told_confirmed), and whenever the packet type chosen can carry the frame (told)."
  },
  {
   "property": "C94",
   "status": "proved",
   "theorems": [
    "Verif.Props.C94.exact",
    "Verif.Props.C94.none_iff",
    "Verif.Props.C94.nothing_before",
    "Verif.Props.C94.early",
    "Verif.Props.C94.due",
    "Verif.Props.C94.late"
   ],
   "note": "After the end no timeout is reported, but on_timeout() may still set is_timed_out() (late)."
  },
  {
   "property": "C95",
   "status": "partial",
   "theorems": [
    "Verif.Props.C95.logged_partial",
    "Verif.Props.C95.never_idle",
    "Verif.Props.C95.false_idle",
    "Verif.Props.C95.false_remote"
   ],
   "note": "The claim is false: an idle timeout is never logged as such, and every end before the handshake is complete is logged as a handshake timeout."
  },
  {
   "property": "C96",
   "status": "proved",
   "theorems": [
    "Verif.Props.C96.close_exact",
    "Verif.Props.C96.failure_closes",
    "Verif.Props.C96.reset_closes",
    "Verif.Props.C96.pathless"
   ],
   "note": ""
  },
  {
   "property": "C97",
   "status": "partial",
   "theorems": [
    "Verif.Props.C97.table",
    "Verif.Props.C97.encoder_table",
    "Verif.Props.C97.encoder_table_all",
    "Verif.Props.C97.complete",
    "Verif.Props.C97.only_format_partial",
    "Verif.Props.C97.insert_count_ignored",
    "Verif.Props.C97.no_dynamic"
   ],
   "note": "The claim is false: the required insert count is not looked at (insert_count_ignored), and integers are taken modulo 2^64. Otherwise exact."
  },
  {
   "property": "C98",
   "status": "partial",
   "theorems": [
    "Verif.Props.C98.complete",
    "Verif.Props.C98.sound_partial",
    "Verif.Props.C98.exact_partial",
    "Verif.Props.C98.refused",
    "Verif.Props.C98.trailing",
    "Verif.Props.C98.not_exact",
    "Verif.Props.C98.wrong_code",
    "Verif.Props.C98.not_codes"
   ],
   "note": "The claim is false: bytes after the integer of GOAWAY, CANCEL_PUSH and MAX_PUSH_ID are accepted (trailing), and truncated payloads are refused with a code that is not of HTTP/3 (wrong_code). Exact otherwise."
  },
  {
   "property": "C99",
   "status": "partial",
   "theorems": [
    "Verif.Props.C99.made_additional",
    "Verif.Props.C99.made_connect",
    "Verif.Props.C99.grease_form",
    "Verif.Props.C99.sent_partial",
    "Verif.Props.C99.accepts_http2",
    "Verif.Props.C99.refused",
    "Verif.Props.C99.panics",
    "Verif.Props.C99.not_sent"
   ],
   "note": "The claim is false: values of 2^62 and more panic (panics) and identifiers of HTTP/2 settings are accepted by the API and refused by the peer (refused). Proved for all other configurations."
  }
 ]
}