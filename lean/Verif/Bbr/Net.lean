import Verif.Bbr.Sampler

/-!
Model of BBR's network model
(`/repo/quiche/src/recovery/gcongestion/bbr2/network_model.rs`; lines below are of that
file unless another is named) and of its parameters (`bbr2.rs`).

* Gains and thresholds are non-negative `f32`, represented by their bit patterns, whose order
  as numbers is that of the floats. What is computed with floats is a parameter, `Floats`.
* `usize::MAX` is `u64Max`; counters do not overflow (not checked), except where noted.
* Fields that are only written, or only read for qlog, are left out, and so is the RTT jump
  detector.
* `bad` is set where the code would panic.
-/

namespace Verif.Bbr

/-- What is computed with floats. -/
structure Floats where
  /-- `Bandwidth * f32` (bandwidth.rs:39-55). -/
  mulBw : Nat → Nat → Nat
  /-- `(bytes as f32 * gain) as usize`. -/
  part : Nat → Nat → Nat
  /-- `1.0 - gain`. -/
  comp : Nat → Nat
  /-- `gain / gain`. -/
  quot : Nat → Nat → Nat
  /-- `(whole as f64 - bytes as f64) / whole as f64` (512-516, 521-525). -/
  rest : Nat → Nat → Nat
  /-- `(gain * bytes as f32 / DEFAULT_MSS as f32) as usize` (probe_bw.rs). -/
  reno : Nat → Nat → Nat

/-- The bit pattern of `1.0f32`. -/
abbrev one : Nat := 0x3f800000

/-- The bit pattern of `1.75f32`. -/
abbrev queueGain : Nat := 0x3fe00000

/-- `BwLoMode` (bbr2.rs:366-391). -/
inductive LoMode where
  | default | minRtt | inflight | cwnd
  deriving DecidableEq, Repr

/-- `Params` (bbr2.rs:61-213), those that are read. -/
structure Params where
  startupCwndGain : Nat
  startupPacingGain : Nat
  fullBwThreshold : Nat
  startupRounds : Nat
  startupQueueRounds : Nat
  startupLossCount : Nat
  drainCwndGain : Nat
  drainPacingGain : Nat
  probeMaxRounds : Nat
  renoCoexistence : Bool
  renoGain : Nat
  probeBase : Nat
  probeLossCount : Nat
  upPacingGain : Nat
  downPacingGain : Nat
  bwPacingGain : Nat
  bwCwndGain : Nat
  upCwndGain : Nat
  ignoreHi : Bool
  upQueueRounds : Nat
  rttFraction : Nat
  rttPeriod : Nat
  rttDuration : Nat
  rttPacingGain : Nat
  rttCwndGain : Nat
  heightWindow : Nat
  headroom : Nat
  lossThreshold : Nat
  beta : Nat
  addAckHeight : Bool
  limitHiByDelivered : Bool
  exitByDelivered : Bool
  deliveredForHi : Bool
  decreaseStartup : Bool
  avoid : Bool
  fix : Bool
  loMode : LoMode
  ignoreAppLimited : Bool
  initialRate : Option Nat
  scaleByMss : Bool
  noEarlyExit : Bool

/-- `DEFAULT_PARAMS` (bbr2.rs:276-364), with the bit patterns of the floats. -/
def Params.default : Params :=
  { startupCwndGain := 0x40000000, startupPacingGain := 0x403178d5, fullBwThreshold := 0x3fa00000, startupRounds := 3,
    startupQueueRounds := 0, startupLossCount := 8, drainCwndGain := 0x40000000, drainPacingGain := 0x3eb1783c,
    probeMaxRounds := 63, renoCoexistence := true, renoGain := one, probeBase := 2000000000, probeLossCount := 2,
    upPacingGain := 0x3fa00000, downPacingGain := 0x3f666666, bwPacingGain := one, bwCwndGain := 0x40000000,
    upCwndGain := 0x40100000, ignoreHi := false, upQueueRounds := 2, rttFraction := 0x3f000000, rttPeriod := 10000000000,
    rttDuration := 200000000, rttPacingGain := one, rttCwndGain := one, heightWindow := 10, headroom := 0x3e19999a,
    lossThreshold := 0x3c75c28f, beta := 0x3e99999a, addAckHeight := false, limitHiByDelivered := true,
    exitByDelivered := true, deliveredForHi := true, decreaseStartup := true, avoid := false, fix := false,
    loMode := .default, ignoreAppLimited := true, initialRate := none, scaleByMss := false, noEarlyExit := false }

/-- `DEFAULT_MSS` (44). -/
abbrev defaultMss : Nat := 1300

/-- `BBRv2CongestionEvent` (bbr2.rs:457-491). -/
structure CEvent where
  now : Nat
  priorCwnd : Nat
  priorInFlight : Nat
  inFlight : Nat
  acked : Nat
  lost : Nat
  endRound : Bool
  probing : Bool
  maxBw : Option Nat
  rtt : Option Nat
  state : SendState
  deriving DecidableEq, Repr

/-- `BBRv2CongestionEvent::new` (bbr2.rs:493-511). -/
def CEvent.new (now priorCwnd priorInFlight : Nat) (probing : Bool) : CEvent :=
  ⟨now, priorCwnd, priorInFlight, 0, 0, 0, false, probing, none, none, .none⟩

/-- `BBRv2NetworkModel` (134-198), with its `RoundTripCounter` (47-53), `MinRttFilter`
(78-82) and `MaxBandwidthFilter` (106-109). -/
structure Net where
  rounds : Nat
  lastSent : Nat
  roundEnd : Option Nat
  sampler : Sampler
  maxBw0 : Nat
  maxBw1 : Nat
  minRtt : Nat
  minRttAt : Nat
  bytesLost : Nat
  lossEvents : Nat
  maxDelivered : Nat
  minInflight : Nat
  bwLatest : Nat
  bwLo : Option Nat
  priorBwLo : Option Nat
  inflightLatest : Nat
  inflightLo : Nat
  inflightHi : Nat
  cwndGain : Nat
  pacingGain : Nat
  full : Bool
  baseline : Nat
  noGrowth : Nat
  queueing : Nat
  bad : Bool

/-- `BBRv2NetworkModel::new` (201-248); `now` is `Instant::now()`. -/
def Net.new (p : Params) (rtt now : Nat) : Net :=
  { rounds := 0, lastSent := 0, roundEnd := none, sampler := .new p.heightWindow p.avoid p.fix now, maxBw0 := 0, maxBw1 := 0,
    minRtt := rtt, minRttAt := now, bytesLost := 0, lossEvents := 0, maxDelivered := 0, minInflight := u64Max,
    bwLatest := 0, bwLo := none, priorBwLo := none, inflightLatest := 0, inflightLo := u64Max,
    inflightHi := u64Max, cwndGain := p.startupCwndGain, pacingGain := p.startupPacingGain, full := false, baseline := 0,
    noGrowth := 0, queueing := 0, bad := false }

/-- `max_bandwidth` (112-114, 291-293). -/
def Net.maxBw (n : Net) : Nat := max n.maxBw0 n.maxBw1

/-- `bandwidth_estimate` (264-269). -/
def Net.estimate (n : Net) : Nat := match n.bwLo with | none => n.maxBw | some a => min a n.maxBw

/-- `bdp` (271-273). -/
def Net.bdp (F : Floats) (n : Net) (bw gain : Nat) : Nat := bytesPer (F.mulBw bw gain) n.minRtt

/-- `bdp0` (279-281). -/
def Net.bdp0 (F : Floats) (n : Net) : Nat := n.bdp F n.maxBw one

/-- `max_ack_height` (260-262). -/
def Net.ackHeight (n : Net) : Nat := n.sampler.maxAckHeight.getD 0

/-- `on_packet_sent` (295-316). -/
def Net.onSent (n : Net) (now inFlight pn bytes : Nat) (eliciting : Bool) : Net :=
  { n with minInflight := min n.minInflight inFlight, lastSent := pn, sampler := n.sampler.onSent now pn bytes inFlight eliciting }

/-- `RoundTripCounter::on_packets_acked` (61-71). -/
def Net.ackRound (n : Net) (pn : Nat) : Bool × Net :=
  match n.roundEnd with
  | some e => if pn ≤ e then (false, n) else (true, { n with rounds := n.rounds + 1, roundEnd := some n.lastSent })
  | none => (true, { n with rounds := n.rounds + 1, roundEnd := some n.lastSent })

/-- The round of an event (327-333). -/
def Net.eventRound (n : Net) (acked : List Acked) : Bool × Net :=
  match acked.getLast? with
  | some pn => n.ackRound pn
  | none => (false, n)

/-- The sample of bandwidth (355-368): whether it is taken, and the filter (116-118). -/
def Net.takeBw (n : Net) (e : EventSample) (priorAcked : Nat) : Option Nat × Net :=
  match e.maxBw with
  | none => (none, n)
  | some b =>
    if priorAcked = n.sampler.acked then (none, n)
    else if e.appLimited = false ∨ b > n.maxBw then (some b, { n with maxBw1 := max n.maxBw1 b })
    else (some b, n)

/-- The sample of the round trip (370-380) and `MinRttFilter::update` (93-98). -/
def Net.takeRtt (n : Net) (e : EventSample) (now : Nat) : Net :=
  match e.rtt with
  | none => n
  | some r => if r < n.minRtt then { n with minRtt := r, minRttAt := now } else n

/-- The losses of an event (394-397). -/
def Net.takeLoss (n : Net) (lost : Nat) : Net :=
  if lost > 0 then { n with bytesLost := n.bytesLost + lost, lossEvents := n.lossEvents + 1 } else n

/-- The bytes delivered (399-408). -/
def Net.takeDelivered (n : Net) (c : CEvent) : Net :=
  if c.acked > 0 ∧ c.state.valid = true ∧ n.sampler.acked > c.state.acked then
    { n with maxDelivered := max n.maxDelivered (n.sampler.acked - c.state.acked) } else n

/-- The latest values, within a round (410-422). -/
def Net.takeLatest (n : Net) (e : EventSample) (inFlight : Nat) : Net :=
  { n with minInflight := min n.minInflight inFlight
           bwLatest := if optGt e.maxBw (some n.bwLatest) = true then e.maxBw.getD 0 else n.bwLatest
           inflightLatest := max n.inflightLatest e.maxInflight }

/-- The lower bounds at the end of a round with losses, by default (454-470). -/
def Net.lowerDefault (F : Floats) (p : Params) (n : Net) (priorCwnd : Nat) : Net :=
  { n with bwLo := some (max n.bwLatest (F.mulBw (n.bwLo.getD n.maxBw) (F.comp p.beta)))
           inflightLo := max n.inflightLatest (F.part (if n.inflightLo = u64Max then priorCwnd else n.inflightLo) (F.comp p.beta)) }

/-- The lower bound of bandwidth reduced for losses, in the other modes (496-529). -/
def Net.reduceLo (F : Floats) (p : Params) (n : Net) (c : CEvent) (lo : Nat) : Nat :=
  match p.loMode with
  | .default => lo
  | .minRtt => lo - rate c.lost n.minRtt
  | .inflight => F.mulBw lo (F.rest (max (n.bdp0 F) c.priorInFlight) c.lost)
  | .cwnd => F.mulBw lo (F.rest c.priorCwnd c.lost)

/-- The lower bounds in the other modes (483-562). -/
def Net.lowerOther (F : Floats) (p : Params) (n : Net) (c : CEvent) : Net :=
  let lo := n.bwLo.getD n.maxBw
  let prior := n.priorBwLo.getD lo
  let last := c.maxBw.getD n.bwLatest
  let red := max (n.reduceLo F p c lo)
    (if n.pacingGain > p.fullBwThreshold then F.mulBw last (F.quot p.fullBwThreshold n.pacingGain) else last)
  if c.endRound = true then { n with bwLo := some (max red (F.mulBw prior (F.comp p.beta))), priorBwLo := none }
  else { n with bwLo := some red, priorBwLo := some prior }

/-- `adapt_lower_bounds` (444-563). -/
def Net.adaptLower (F : Floats) (p : Params) (n : Net) (c : CEvent) : Net :=
  if p.loMode = .default then
    if c.endRound = false ∨ c.probing = true then n
    else if n.bytesLost > 0 then n.lowerDefault F p c.priorCwnd else n
  else if c.lost = 0 then n
  else if n.pacingGain < one then n
  else n.lowerOther F p c

/-- The latest values at the end of a round (427-437). -/
def Net.endLatest (n : Net) (e : EventSample) (endRound : Bool) : Net :=
  if endRound = false then n
  else { n with bwLatest := e.maxBw.getD n.bwLatest, inflightLatest := if e.maxInflight > 0 then e.maxInflight else n.inflightLatest }

/-- The event with the results of the sampler (325-392). -/
def CEvent.fill (c : CEvent) (s : EventSample) (endRound : Bool) (bw : Option Nat) (acked lost : Nat) : CEvent :=
  { c with endRound := endRound, state := if s.state.valid = true then s.state else c.state,
           maxBw := bw, rtt := s.rtt, acked := acked, lost := lost, inFlight := c.priorInFlight - acked - lost }

/-- `on_congestion_event_start` (318-438). -/
def Net.start (F : Floats) (p : Params) (n : Net) (c : CEvent) (acked : List Acked) (lost : List Lost) : CEvent × Net :=
  let r := n.eventRound acked
  let s := r.2.sampler.onEvent c.now acked lost n.maxBw (n.bwLo.getD infinite) r.2.rounds
  let m := { r.2 with sampler := s.2 }
  let b := m.takeBw s.1 n.sampler.acked
  let c := c.fill s.1 r.1 b.1 (s.2.acked - n.sampler.acked) (s.2.lost - n.sampler.lost)
  let m := ((((b.2.takeRtt s.1 c.now).takeLoss c.lost).takeDelivered c).takeLatest s.1 c.inFlight).adaptLower F p c
  (c, { m.endLatest s.1 c.endRound with
          bad := n.bad || decide (s.2.acked < n.sampler.acked) || decide (s.2.lost < n.sampler.lost) })

/-- `on_new_round` (635-641). -/
def Net.newRound (n : Net) : Net := { n with bytesLost := 0, lossEvents := 0, maxDelivered := 0, minInflight := u64Max }

/-- `on_congestion_event_finish` (565-575). -/
def Net.finish (n : Net) (c : CEvent) (least : Nat) : Net :=
  let n := if c.endRound = true then n.newRound else n
  { n with sampler := n.sampler.removeObsolete least }

/-- `restart_round_early` (629-633) with `restart_round` (73-75). -/
def Net.restart (n : Net) : Net := { n.newRound with roundEnd := some n.lastSent, queueing := 0 }

/-- `maybe_expire_min_rtt` (577-596). -/
def Net.expireRtt (p : Params) (n : Net) (c : CEvent) : Bool × Net :=
  match c.rtt with
  | none => (false, n)
  | some r => if c.now < n.minRttAt + p.rttPeriod then (false, n) else (true, { n with minRtt := r, minRttAt := c.now })

/-- `is_inflight_too_high` (598-627). -/
def Net.tooHigh (F : Floats) (p : Params) (n : Net) (c : CEvent) (maxEvents : Nat) : Bool :=
  c.state.valid && decide (maxEvents ≤ n.lossEvents) && decide (c.state.inFlight > 0) && decide (n.bytesLost > 0)
    && decide (n.bytesLost > F.part c.state.inFlight p.lossThreshold)

/-- `has_bandwidth_growth` (643-675). -/
def Net.growth (F : Floats) (p : Params) (n : Net) (c : CEvent) : Bool × Net :=
  if n.maxBw ≥ F.mulBw n.baseline p.fullBwThreshold then (true, { n with baseline := n.maxBw, noGrowth := 0 })
  else if c.state.valid = false then (false, n)
  else
    let k := if p.ignoreAppLimited = true ∧ c.state.appLimited = true then n.noGrowth else n.noGrowth + 1
    (false, { n with noGrowth := k, full := n.full || (decide (k ≥ p.startupRounds) && !c.state.appLimited) })

/-- `queueing_threshold_extra_bytes` (677-680). -/
abbrev queueExtra : Nat := 2 * defaultMss

/-- `check_persistent_queue` (682-699). -/
def Net.checkQueue (F : Floats) (p : Params) (n : Net) (gain : Nat) : Net :=
  if n.minInflight < max (n.bdp F n.maxBw gain) (n.bdp0 F + queueExtra) then { n with queueing := 0 }
  else { n with queueing := n.queueing + 1, full := n.full || decide (n.queueing + 1 ≥ p.startupQueueRounds) }

/-- `inflight_hi_with_headroom` (772-776). -/
def Net.hiHeadroom (F : Floats) (p : Params) (n : Net) : Nat := n.inflightHi - F.part n.inflightHi p.headroom

/-- `cap_inflight_lo` (794-798). -/
def Net.capLo (n : Net) (cap : Nat) : Net := if n.inflightLo ≠ u64Max then { n with inflightLo := min cap n.inflightLo } else n

/-- `advance_max_bandwidth_filter` (120-127, 804-806). -/
def Net.advance (n : Net) : Net := if n.maxBw1 = 0 then n else { n with maxBw0 := n.maxBw1, maxBw1 := 0 }

/-- `postpone_min_rtt_timestamp` (808-811). -/
def Net.postpone (n : Net) (d : Nat) : Net := { n with minRttAt := n.minRttAt + d }

end Verif.Bbr
