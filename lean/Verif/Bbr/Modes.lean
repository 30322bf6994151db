import Verif.Bbr.Net

/-!
Model of the modes of BBR (`mode.rs`, `startup.rs`, `drain.rs`, `probe_bw.rs`,
`probe_rtt.rs` in `/repo/quiche/src/recovery/gcongestion/bbr2/`) and of the congestion
controller made of them (`bbr2.rs`).

* Each mode holds the network model in the code; here it is beside the mode. `Placeholder`
  is only there while a mode is being replaced and is left out.
* `probe_up_app_limited_since_inflight_hi_limited` is only written and is left out.
* `avoid_unnecessary_probe_rtt` is always true.
-/

namespace Verif.Bbr

/-- `CyclePhase` (mode.rs:48-56). -/
inductive Phase where
  | notStarted | up | down | cruise | refill
  deriving DecidableEq, Repr

/-- `CyclePhase::pacing_gain` (mode.rs:59-65). -/
def Phase.pacingGain (p : Params) : Phase → Nat
  | .up => p.upPacingGain
  | .down => p.downPacingGain
  | _ => p.bwPacingGain

/-- `CyclePhase::cwnd_gain` (mode.rs:67-72). -/
def Phase.cwndGain (p : Params) : Phase → Nat
  | .up => p.upCwndGain
  | _ => p.bwCwndGain

/-- `Cycle` (mode.rs:75-94). -/
structure Cycle where
  start : Nat
  phase : Phase
  rounds : Nat
  phaseStart : Nat
  sinceProbe : Nat
  wait : Option Nat
  upRounds : Nat
  upBytes : Option Nat
  upAcked : Nat
  advanced : Bool
  fromProbing : Bool
  tooHigh : Bool
  risky : Bool
  deriving DecidableEq, Repr

/-- `Cycle::default` (mode.rs:96-118). The times are read from the clock, and replaced before
they are used. -/
def Cycle.new (now : Nat) : Cycle := ⟨now, .notStarted, 0, now, 0, none, 0, none, 0, false, false, false, false⟩

/-- `Mode` (mode.rs:152-160). -/
inductive Mode where
  | startup
  | drain (c : Cycle)
  | probeBw (c : Cycle)
  | probeRtt (c : Cycle) (exit : Option Nat)
  deriving DecidableEq, Repr

/-- `StartupExitReason` (mod.rs:817-826). -/
inductive Reason where
  | loss | plateau | queue
  deriving DecidableEq, Repr

/-- `StartupExit` (mod.rs:789-800). -/
structure Exit where
  cwnd : Nat
  bandwidth : Nat
  reason : Reason
  deriving DecidableEq, Repr

/-- `RecoveryStats::set_startup_exit` (mod.rs:782-786). -/
def setExit (x : Option Exit) (e : Exit) : Option Exit := match x with | none => some e | some x => some x

/-! ### Startup -/

/-- `check_excessive_losses` (startup.rs:170-189). -/
def Net.checkLosses (F : Floats) (p : Params) (n : Net) (c : CEvent) : Net :=
  if n.tooHigh F p c p.startupLossCount = true then
    { n with inflightHi := if p.exitByDelivered = true then max (n.bdp0 F) n.maxDelivered else n.bdp0 F, full := true }
  else n

/-- The plateau of bandwidth (startup.rs:76-84). -/
def startupPlateau (F : Floats) (p : Params) (n : Net) (c : CEvent) (x : Option Exit) (cwnd : Nat) : Bool × Net × Option Exit :=
  let g := n.growth F p c
  (g.1, g.2, if g.2.full = true then setExit x ⟨cwnd, g.2.maxBw, .plateau⟩ else x)

/-- The queue (startup.rs:86-101). -/
def startupQueue (F : Floats) (p : Params) (n : Net) (x : Option Exit) (cwnd : Nat) (grown : Bool) : Net × Option Exit :=
  if p.startupQueueRounds > 0 ∧ grown = false then
    let n := n.checkQueue F p queueGain
    (n, if n.full = true then setExit x ⟨cwnd, n.maxBw, .queue⟩ else x)
  else (n, x)

/-- The losses (startup.rs:103-121). -/
def startupLoss (F : Floats) (p : Params) (n : Net) (c : CEvent) (x : Option Exit) (cwnd : Nat) (grown : Bool) : Net × Option Exit :=
  if c.state.appLimited = false ∧ grown = false ∧ n.full = false then
    let n := n.checkLosses F p c
    (n, if n.full = true then setExit x ⟨cwnd, n.maxBw, .loss⟩ else x)
  else (n, x)

/-- `into_drain` (startup.rs:160-168), with `leave` (150-156). -/
def intoDrain (n : Net) (now : Nat) : Mode × Net := (.drain (.new now), { n with bwLo := none })

/-- `Startup::on_congestion_event` (startup.rs:61-128). -/
def onStartup (F : Floats) (p : Params) (n : Net) (c : CEvent) (x : Option Exit) (cwnd : Nat) : Mode × Net × Option Exit :=
  if n.full = true then ((intoDrain n c.now).1, (intoDrain n c.now).2, x)
  else if c.endRound = false then (.startup, n, x)
  else
    let g := startupPlateau F p n c x cwnd
    let q := startupQueue F p g.2.1 g.2.2 cwnd g.1
    let l := startupLoss F p q.1 c q.2 cwnd g.1
    if l.1.full = true then ((intoDrain l.1 c.now).1, (intoDrain l.1 c.now).2, l.2) else (.startup, l.1, l.2)

/-! ### ProbeBW -/

/-- `enter_probe_down` (probe_bw.rs:201-233). -/
def enterDown (p : Params) (n : Net) (y : Cycle) (tooHigh risky : Bool) (now : Nat) : Net × Cycle :=
  (({ n with bwLo := if p.loMode = .default then n.bwLo else none } : Net).restart,
   { y with tooHigh := tooHigh, risky := risky, phase := .down, start := now, phaseStart := now, rounds := 0, sinceProbe := 0,
            wait := some (p.probeBase + 500000), upBytes := none, advanced := false })

/-- `exit_probe_down` (probe_bw.rs:281-286), for the phases that call it. -/
def exitDown (n : Net) (y : Cycle) : Net × Cycle :=
  if y.phase = .down ∧ y.advanced = false then (n.advance, { y with advanced := true }) else (n, y)

/-- `enter_probe_cruise` (probe_bw.rs:235-247). -/
def enterCruise (n : Net) (y : Cycle) (now : Nat) : Net × Cycle :=
  let r := exitDown n y
  (r.1.capLo r.1.inflightHi, { r.2 with phase := .cruise, phaseStart := now, rounds := 0, fromProbing := false })

/-- `enter_probe_refill` (probe_bw.rs:249-268). -/
def enterRefill (n : Net) (y : Cycle) (upRounds now : Nat) : Net × Cycle :=
  let r := exitDown n y
  (({ r.1 with bwLo := none, inflightLo := u64Max } : Net).restart,
   { r.2 with phase := .refill, phaseStart := now, rounds := 0, fromProbing := false, risky := false, upRounds := upRounds, upAcked := 0 })

/-- `raise_inflight_high_slope` (probe_bw.rs:582-590). A shift by 64 or more panics. -/
def raiseSlope (n : Net) (y : Cycle) (cwnd : Nat) : Net × Cycle :=
  ({ n with bad := n.bad || decide (y.upRounds ≥ 64) },
   { y with upRounds := min (y.upRounds + 1) 30, upBytes := some (max (cwnd / 2 ^ y.upRounds) defaultMss) })

/-- `enter_probe_up` (probe_bw.rs:270-279). -/
def enterUp (n : Net) (y : Cycle) (now cwnd : Nat) : Net × Cycle :=
  let r := raiseSlope n { y with phase := .up, phaseStart := now, rounds := 0, fromProbing := true } cwnd
  (r.1.restart, r.2)

/-- `AdaptUpperBoundsResult` (probe_bw.rs:56-62). -/
inductive Adapted where
  | ok | tooHigh | notSet | invalid
  deriving DecidableEq, Repr

/-- The inflight a sample stands for (probe_bw.rs:481-486). -/
def atSend (p : Params) (n : Net) (c : CEvent) : Nat := if p.deliveredForHi = true then n.sampler.acked - c.state.acked else c.state.inFlight

/-- The upper bound after too many losses (probe_bw.rs:495-513). -/
def lowerHi (F : Floats) (p : Params) (n : Net) (c : CEvent) (target : Nat) : Net :=
  if c.state.appLimited = false ∨ p.upQueueRounds > 0 then
    let hi := max (atSend p n c) (F.part target (F.comp p.beta))
    { n with inflightHi := if p.limitHiByDelivered = true then max n.maxDelivered hi else hi }
  else n

/-- `maybe_adapt_upper_bounds` (probe_bw.rs:471-529). -/
def adaptUpper (F : Floats) (p : Params) (n : Net) (y : Cycle) (c : CEvent) (target : Nat) : Adapted × Net × Cycle :=
  if c.state.valid = false then (.invalid, n, y)
  else
    let n := { n with bad := n.bad || (p.deliveredForHi && decide (n.sampler.acked < c.state.acked)) }
    if y.fromProbing = true then
      if n.tooHigh F p c p.probeLossCount = true then (.tooHigh, lowerHi F p n c target, { y with fromProbing := false })
      else (.ok, n, y)
    else if n.inflightHi = u64Max then (.notSet, n, y)
    else (.ok, { n with inflightHi := max n.inflightHi (atSend p n c) }, y)

/-- `is_time_to_probe_for_reno_coexistence` (probe_bw.rs:543-561). Multiplied by 1.0 the
number of rounds is unchanged. -/
def renoTime (F : Floats) (p : Params) (y : Cycle) (target : Nat) : Bool :=
  p.renoCoexistence &&
    decide (y.sinceProbe ≥ if p.renoGain > 0 then min (F.reno p.renoGain target) p.probeMaxRounds else p.probeMaxRounds)

/-- `is_time_to_probe_bandwidth` (probe_bw.rs:448-469), after the `unwrap`. -/
def probeTime (F : Floats) (p : Params) (y : Cycle) (c : CEvent) (target : Nat) : Bool :=
  decide (c.now - y.start > y.wait.getD 0) || renoTime F p y target

/-- `has_stayed_long_enough_in_probe_down` (probe_bw.rs:570-580). -/
def downLasted (p : Params) (n : Net) (y : Cycle) (c : CEvent) : Bool := !p.noEarlyExit && decide (c.now - y.phaseStart > n.minRtt)

/-- What an `unwrap` of the waiting time needs (probe_bw.rs:453). -/
def needWait (n : Net) (y : Cycle) : Net := { n with bad := n.bad || y.wait.isNone }

/-- The first end of a round in the phase (probe_bw.rs:293-298). -/
def firstRound (n : Net) (y : Cycle) (c : CEvent) : Net × Cycle :=
  (if c.state.appLimited = false then n.advance else n,
   { y with fromProbing := false, advanced := y.advanced || !c.state.appLimited })

/-- The rest of `update_probe_down` (probe_bw.rs:308-344). -/
def downRest (F : Floats) (p : Params) (n : Net) (y : Cycle) (c : CEvent) (target : Nat) : Net × Cycle :=
  let a := adaptUpper F p n y c target
  let n := needWait a.2.1 a.2.2
  let y := a.2.2
  if probeTime F p y c target = true then enterRefill n y 0 c.now
  else if downLasted p n y c = true then enterCruise n y c.now
  else if c.inFlight > n.hiHeadroom F p then (n, y)
  else if c.inFlight < n.bdp0 F then enterCruise n y c.now
  else (n, y)

/-- `update_probe_down` (probe_bw.rs:288-345). -/
def updateDown (F : Floats) (p : Params) (n : Net) (y : Cycle) (c : CEvent) (target : Nat) : Net × Cycle :=
  if y.rounds = 1 ∧ c.endRound = true then
    let r := firstRound n y c
    if y.risky = true ∧ y.tooHigh = false then enterRefill r.1 r.2 0 c.now
    else downRest F p r.1 r.2 c target
  else downRest F p n y c target

/-- `update_probe_cruise` (probe_bw.rs:347-364). -/
def updateCruise (F : Floats) (p : Params) (n : Net) (y : Cycle) (c : CEvent) (target : Nat) : Net × Cycle :=
  let a := adaptUpper F p n y c target
  let n := needWait a.2.1 a.2.2
  if probeTime F p a.2.2 c target = true then enterRefill n a.2.2 0 c.now else (n, a.2.2)

/-- `update_probe_refill` (probe_bw.rs:366-382). -/
def updateRefill (F : Floats) (p : Params) (n : Net) (y : Cycle) (c : CEvent) (target : Nat) : Net × Cycle :=
  let a := adaptUpper F p n y c target
  if a.2.2.rounds > 0 ∧ c.endRound = true then enterUp a.2.1 a.2.2 c.now c.priorCwnd else (a.2.1, a.2.2)

/-- The growth of the upper bound by the bytes acknowledged (probe_bw.rs:616-629). -/
def growHi (n : Net) (y : Cycle) : Net × Cycle :=
  match y.upBytes with
  | none => (n, y)
  | some b =>
    if y.upAcked ≥ b then
      ({ n with inflightHi := n.inflightHi + y.upAcked / b * defaultMss,
                bad := n.bad || decide (b = 0) || decide (n.inflightHi + y.upAcked / b * defaultMss > u64Max) },
       { y with upAcked := y.upAcked - y.upAcked / b * b })
    else (n, y)

/-- `probe_inflight_high_upward` (probe_bw.rs:592-634). -/
def probeUpward (p : Params) (n : Net) (y : Cycle) (c : CEvent) : Net × Cycle :=
  if p.ignoreHi = true then (n, y)
  else if c.priorInFlight < c.priorCwnd then (n, y)
  else if c.priorCwnd < n.inflightHi then (n, y)
  else
    let r := growHi n { y with upAcked := y.upAcked + c.acked }
    if c.endRound = true then raiseSlope r.1 r.2 c.priorCwnd else r

/-- Whether probing has built a queue (probe_bw.rs:411-436). -/
def upQueue (F : Floats) (p : Params) (n : Net) (y : Cycle) (c : CEvent) : Bool × Net :=
  if y.rounds > 0 then
    if p.upQueueRounds > 0 then
      if c.endRound = true then
        let n := n.checkQueue F p p.fullBwThreshold
        (decide (n.queueing ≥ p.upQueueRounds), n)
      else (false, n)
    else (decide (c.inFlight ≥ F.part (n.bdp0 F) p.fullBwThreshold + (queueExtra + if p.addAckHeight = true then n.ackHeight else 0)), n)
  else (false, n)

/-- `update_probe_up` (probe_bw.rs:384-446). -/
def updateUp (F : Floats) (p : Params) (n : Net) (y : Cycle) (c : CEvent) (target : Nat) : Net × Cycle :=
  let a := adaptUpper F p n y c target
  if a.1 = .tooHigh then enterDown p a.2.1 a.2.2 true false c.now
  else
    let u := probeUpward p a.2.1 a.2.2 c
    if u.2.tooHigh = true ∧ c.priorInFlight ≥ u.1.inflightHi then enterDown p u.1 u.2 false true c.now
    else
      let q := upQueue F p u.1 u.2 c
      if q.1 = true then enterDown p q.2 u.2 false false c.now else (q.2, u.2)

/-- `ProbeBW::enter` (probe_bw.rs:76-92). -/
def enterProbeBw (p : Params) (n : Net) (y : Cycle) (now : Nat) : Net × Cycle :=
  let y := { y with start := now }
  match y.phase with
  | .notStarted => enterDown p n y false false now
  | .cruise => enterCruise n y now
  | .refill => enterRefill n y y.upRounds now
  | .up | .down => (n, y)

/-- `ProbeRTT::enter` and `new` (probe_rtt.rs:53-59, 137-144; probe_bw.rs:636-644). -/
def enterProbeRtt (p : Params) (n : Net) (y : Cycle) : Mode × Net :=
  (.probeRtt y none, { n with pacingGain := p.rttPacingGain, cwndGain := p.rttCwndGain })

/-- Rounds counted (probe_bw.rs:100-108). -/
def countRounds (y : Cycle) (c : CEvent) : Cycle :=
  if c.endRound = true then
    { y with sinceProbe := if y.start ≠ c.now then y.sinceProbe + 1 else y.sinceProbe,
             rounds := if y.phaseStart ≠ c.now then y.rounds + 1 else y.rounds }
  else y

/-- The phase at work (probe_bw.rs:110-142): the new state, and whether the phase was left with the minimum round trip expired. -/
def updatePhase (F : Floats) (p : Params) (n : Net) (y : Cycle) (c : CEvent) (target : Nat) : Bool × Net × Cycle :=
  match y.phase with
  | .notStarted => (false, { n with bad := true }, y)
  | .up => (false, updateUp F p n y c target)
  | .down =>
    let r := updateDown F p n y c target
    if r.2.phase ≠ .down then ((r.1.expireRtt p c).1, (r.1.expireRtt p c).2, r.2) else (false, r)
  | .cruise => (false, updateCruise F p n y c target)
  | .refill => (false, updateRefill F p n y c target)

/-- `ProbeBW::on_congestion_event` (probe_bw.rs:94-157). -/
def onProbeBw (F : Floats) (p : Params) (n : Net) (y : Cycle) (c : CEvent) (target : Nat) : Mode × Net :=
  let r := updatePhase F p n (countRounds y c) c target
  if r.1 = true then enterProbeRtt p r.2.1 r.2.2
  else (.probeBw r.2.2, { r.2.1 with pacingGain := r.2.2.phase.pacingGain p, cwndGain := r.2.2.phase.cwndGain p })

/-! ### Drain and ProbeRTT -/

/-- `into_probe_bw` (drain.rs:107-115, probe_rtt.rs:61-69). -/
def intoProbeBw (p : Params) (n : Net) (y : Cycle) (now : Nat) : Mode × Net :=
  (.probeBw (enterProbeBw p n y now).2, (enterProbeBw p n y now).1)

/-- `Drain::on_congestion_event` (drain.rs:61-83). -/
def onDrain (F : Floats) (p : Params) (n : Net) (y : Cycle) (c : CEvent) : Mode × Net :=
  let n := { n with pacingGain := p.drainPacingGain, cwndGain := p.drainCwndGain }
  if c.inFlight ≤ n.bdp0 F then intoProbeBw p n y c.now else (.drain y, n)

/-- `inflight_target` (probe_rtt.rs:71-76). -/
def rttTarget (F : Floats) (p : Params) (n : Net) : Nat := n.bdp F n.maxBw p.rttFraction

/-- `ProbeRTT::on_congestion_event` (probe_rtt.rs:89-114). -/
def onProbeRtt (F : Floats) (p : Params) (n : Net) (y : Cycle) (exit : Option Nat) (c : CEvent) : Mode × Net :=
  match exit with
  | none => (.probeRtt y (if c.inFlight ≤ rttTarget F p n then some (c.now + p.rttDuration) else none), n)
  | some t => if c.now > t then intoProbeBw p n y c.now else (.probeRtt y (some t), n)

/-! ### The controller -/

/-- `BBRv2` (bbr2.rs:439-455); `exit` is `startup_exit` of the recovery's statistics. -/
structure Bbr where
  mode : Mode
  net : Net
  cwnd : Nat
  mss : Nat
  pacingRate : Nat
  lo : Nat
  hi : Nat
  initial : Nat
  quiet : Option Nat
  exit : Option Exit

/-- `initial_pacing_rate` (bbr2.rs:429-437). The factor 2.885 is an `f64`; its code is left open. -/
def initialRate (F : Floats) (p : Params) (cwnd rtt factor : Nat) : Nat :=
  match p.initialRate with
  | some r => r * 8
  | none => F.mulBw (rate cwnd rtt) factor

/-- `BBRv2::new` (bbr2.rs:514-542). -/
def Bbr.new (F : Floats) (p : Params) (initial max mss rtt now factor : Nat) : Bbr :=
  { mode := .startup, net := .new p rtt now, cwnd := initial * mss, mss := mss, pacingRate := initialRate F p (initial * mss) rtt factor,
    lo := initial * mss, hi := max * mss, initial := initial * mss, quiet := none, exit := none }

/-- `is_probing_for_bandwidth` of the modes (startup.rs:57-59, drain.rs:57-59, probe_bw.rs:180-183, probe_rtt.rs:85-87). -/
def Mode.probing : Mode → Bool
  | .startup => true
  | .drain _ => false
  | .probeBw c => decide (c.phase = .refill) || decide (c.phase = .up)
  | .probeRtt _ _ => false

/-- `target_bytes_inflight` (bbr2.rs:641-645). -/
def Bbr.target (F : Floats) (b : Bbr) : Nat := min (b.net.bdp F b.net.estimate one) b.cwnd

/-- `Mode::do_on_congestion_event` (mode.rs:189-213). -/
def Bbr.doEvent (F : Floats) (p : Params) (b : Bbr) (c : CEvent) : Bbr :=
  match b.mode with
  | .startup =>
    let r := onStartup F p b.net c b.exit b.cwnd
    { b with mode := r.1, net := r.2.1, exit := r.2.2 }
  | .drain y => { b with mode := (onDrain F p b.net y c).1, net := (onDrain F p b.net y c).2 }
  | .probeBw y => { b with mode := (onProbeBw F p b.net y c (b.target F)).1, net := (onProbeBw F p b.net y c (b.target F)).2 }
  | .probeRtt y x => { b with mode := (onProbeRtt F p b.net y x c).1, net := (onProbeRtt F p b.net y x c).2 }

/-- `std::mem::discriminant` (mode.rs:196, 210). -/
def Mode.kind : Mode → Nat
  | .startup => 0
  | .drain _ => 1
  | .probeBw _ => 2
  | .probeRtt _ _ => 3

/-- The loop over mode changes (bbr2.rs:719-735): the state, and whether the last call
changed the mode. -/
def Bbr.loop (F : Floats) (p : Params) (c : CEvent) : Nat → Bbr → Bool × Bbr
  | 0, b => (true, b)
  | k + 1, b => if (b.doEvent F p c).mode.kind = b.mode.kind then (false, b.doEvent F p c) else loop F p c k (b.doEvent F p c)

/-- `MAX_MODE_CHANGES_PER_CONGESTION_EVENT` (bbr2.rs:59). -/
abbrev maxChanges : Nat := 4

/-- The rate after the first ACK (bbr2.rs:572-590). -/
def firstRate (p : Params) (cwnd rtt : Nat) : Nat :=
  match p.initialRate with
  | none => rate cwnd rtt
  | some r => min (rate cwnd rtt) (r * 8)

/-- `update_pacing_rate` (bbr2.rs:565-615). -/
def Bbr.updateRate (F : Floats) (p : Params) (b : Bbr) (acked : Nat) : Bbr :=
  let n := b.net
  if n.estimate = 0 then b
  else if n.sampler.acked = acked then { b with pacingRate := firstRate p b.cwnd n.minRtt }
  else
    let t := F.mulBw n.estimate n.pacingGain
    if n.full = true then { b with pacingRate := t }
    else if p.decreaseStartup = true ∧ n.pacingGain < p.startupPacingGain then { b with pacingRate := t }
    else if p.loMode ≠ .default ∧ n.lossEvents > 0 then { b with pacingRate := t }
    else { b with pacingRate := max b.pacingRate t }

/-- `apply_limits` (bbr2.rs:415-417). -/
def applyLimits (lo hi v : Nat) : Nat := min (max v lo) hi

/-- The upper limit of `get_cwnd_limits` of the modes (startup.rs:130-135, drain.rs:85-90, probe_bw.rs:159-178,
probe_rtt.rs:116-124); the lower one is 0. -/
def Bbr.modeHi (F : Floats) (p : Params) (b : Bbr) : Nat :=
  match b.mode with
  | .startup | .drain _ => b.net.inflightLo
  | .probeBw c =>
    if c.phase = .cruise then min b.net.inflightLo (b.net.hiHeadroom F p)
    else if c.phase = .up ∧ p.ignoreHi = true then b.net.inflightLo
    else min b.net.inflightLo b.net.inflightHi
  | .probeRtt _ _ => min (min b.net.inflightLo (b.net.hiHeadroom F p)) (rttTarget F p b.net)

/-- The window before the limits (bbr2.rs:558-563, 618-628). -/
def Bbr.wantCwnd (F : Floats) (b : Bbr) (acked : Nat) : Nat :=
  let t := max (b.net.bdp F b.net.estimate b.net.cwndGain) b.lo
  if b.net.full = true then min (t + b.net.ackHeight) (b.cwnd + acked)
  else if b.cwnd < t ∨ b.cwnd < 2 * b.initial then b.cwnd + acked
  else b.cwnd

/-- `update_congestion_window` (bbr2.rs:617-635). -/
def Bbr.updateCwnd (F : Floats) (p : Params) (b : Bbr) (acked : Nat) : Bbr :=
  { b with cwnd := applyLimits b.lo b.hi (applyLimits 0 (b.modeHi F p) (b.wantCwnd F acked)) }

/-- `on_congestion_event` (bbr2.rs:698-754): what is known of the event, and the new state. -/
def Bbr.onEvent (F : Floats) (p : Params) (b : Bbr) (now inFlight : Nat) (acked : List Acked) (lost : List Lost) (least : Nat) : CEvent × Bbr :=
  let s := b.net.start F p (.new now b.cwnd inFlight b.mode.probing) acked lost
  let m := (({ b with net := s.2 } : Bbr).loop F p s.1 maxChanges).2
  let u := (m.updateRate F p s.1.acked).updateCwnd F p s.1.acked
  (s.1, { u with net := u.net.finish s.1 least, quiet := if s.1.inFlight = 0 then some now else u.quiet })

/-- `on_exit_quiescence` of the modes (startup.rs:137-141, drain.rs:92-96, probe_bw.rs:185-191, probe_rtt.rs:126-135). -/
def Bbr.wake (p : Params) (b : Bbr) (now since : Nat) : Bbr :=
  match b.mode with
  | .startup | .drain _ => b
  | .probeBw _ => { b with net := b.net.postpone (now - since) }
  | .probeRtt y none => { b with mode := (intoProbeBw p b.net y now).1, net := (intoProbeBw p b.net y now).2 }
  | .probeRtt y (some t) =>
    if now > t then { b with mode := (intoProbeBw p b.net y now).1, net := (intoProbeBw p b.net y now).2 } else b

/-- `on_exit_quiescence` (bbr2.rs:548-556). -/
def Bbr.exitQuiet (p : Params) (b : Bbr) (now : Nat) : Bbr :=
  match b.quiet with
  | none => b
  | some t => ({ b with quiet := none } : Bbr).wake p now t

/-- `on_packet_sent` (bbr2.rs:680-696). -/
def Bbr.onSent (p : Params) (b : Bbr) (now inFlight pn bytes : Nat) (eliciting : Bool) : Bbr :=
  let b := if inFlight = 0 then b.exitQuiet p now else b
  { b with net := b.net.onSent now inFlight pn bytes eliciting }

/-- `on_packet_neutered` (bbr2.rs:756-759). -/
def Bbr.onNeutered (b : Bbr) (pn : Nat) : Bbr := { b with net := { b.net with sampler := b.net.sampler.onNeutered pn } }

/-- `on_app_limited` (bbr2.rs:805-812). -/
def Bbr.onAppLimited (b : Bbr) (inFlight : Nat) : Bbr :=
  if inFlight ≥ b.cwnd then b else { b with net := { b.net with sampler := b.net.sampler.onAppLimited } }

/-- `update_mss` (bbr2.rs:789-803); `factor` is the code of `new_mss as f64 / self.mss as f64`. -/
def Bbr.updateMss (F : Floats) (p : Params) (b : Bbr) (mss factor : Nat) : Bbr :=
  { b with hi := b.hi * mss / b.mss, lo := b.lo * mss / b.mss, cwnd := b.cwnd * mss / b.mss, initial := b.initial * mss / b.mss,
           pacingRate := if p.scaleByMss = true then F.mulBw b.pacingRate factor else b.pacingRate, mss := mss }

/-- `limit_cwnd` (bbr2.rs:814-816). -/
def Bbr.limitCwnd (b : Bbr) (max : Nat) : Bbr := { b with hi := max }

end Verif.Bbr
