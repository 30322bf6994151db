import Verif.Small.Minmax

/-!
Model of loss detection with Reno and CUBIC
(`/repo/quiche/src/recovery/congestion/recovery.rs`, `rtt.rs`, `bytes_in_flight.rs`).

* Times and durations are nanoseconds, `Nat`. `now - d` is 0 when the clock is younger
  than `d`, where the Rust code panics (recovery.rs:212, 234, 566, 750).
* The congestion controller is a parameter `Cc`, so what is proved holds for every
  controller. `scale` stands for `Duration::mul_f64` with the two time thresholds.
* `in_flight_count` is an `Int`, so that a subtraction below zero, a panic or a wrap in
  Rust, is not hidden.
* Frames are opaque values (`Nat`).
* A sent packet carries what it weighs on the wire; `size` follows lib.rs:5444-5462.
-/

namespace Verif.Rec

open Verif.Minmax

/-- `GRANULARITY` (recovery/mod.rs), 1 ms. -/
abbrev granularity : Nat := 1000000
/-- `INITIAL_PACKET_THRESHOLD` (recovery/mod.rs). -/
abbrev initialPacketThreshold : Nat := 3
/-- `MAX_PACKET_THRESHOLD` (recovery/mod.rs). -/
abbrev maxPacketThreshold : Nat := 20
/-- `MAX_PTO_PROBES_COUNT` (recovery/mod.rs). -/
abbrev maxPtoProbes : Nat := 2
/-- `RTT_WINDOW` (rtt.rs:33), 300 s. -/
abbrev rttWindow : Nat := 300000000000

/-- `Epoch` (packet.rs). -/
inductive Epoch where
  | initial
  | handshake
  | application
  deriving DecidableEq, Repr

/-- `Sent` (recovery/mod.rs), without what only the congestion controllers read. -/
structure Sent where
  pn : Nat
  frames : List Nat
  timeSent : Nat
  timeAcked : Option Nat
  timeLost : Option Nat
  size : Nat
  ackEliciting : Bool
  inFlight : Bool
  hasData : Bool
  probe : Bool
  deriving DecidableEq, Repr

/-- `Acked` (recovery/congestion/mod.rs), with the frames that are reported. -/
structure Acked where
  pn : Nat
  timeSent : Nat
  size : Nat
  rtt : Nat
  frames : List Nat
  deriving DecidableEq, Repr

/-- `HandshakeStatus` (recovery/mod.rs). -/
structure Status where
  hasKeys : Bool
  peerVerified : Bool
  completed : Bool
  deriving DecidableEq, Repr

/-- `RecoveryEpoch` (recovery.rs:71-101). -/
structure Space where
  lastEliciting : Option Nat
  largestAcked : Option Nat
  lossTime : Option Nat
  sent : List Sent
  lossProbes : Nat
  inFlightCount : Int
  ackedFrames : List Nat
  lostAck : List Nat
  lostPto : List Nat
  deriving DecidableEq, Repr

/-- `RecoveryEpoch::default` (recovery.rs:70). -/
def Space.new : Space := ⟨none, none, none, [], 0, 0, [], [], []⟩

/-! ### The RTT estimator -/

/-- `RttStats` (rtt.rs:35-49). -/
structure Rtt where
  latest : Nat
  maxRtt : Nat
  smoothed : Nat
  rttvar : Nat
  minRtt : Filter Nat
  maxAckDelay : Nat
  hasFirst : Bool
  deriving DecidableEq, Repr

/-- `RttStats::new` (rtt.rs:63-73); `t0` is the time of the call. -/
def Rtt.new (t0 initialRtt maxAckDelay : Nat) : Rtt :=
  { latest := 0, maxRtt := initialRtt, smoothed := initialRtt, rttvar := initialRtt / 2,
    minRtt := reset t0 initialRtt, maxAckDelay := maxAckDelay, hasFirst := false }

/-- The limit on the peer's delay (rtt.rs:96-98). -/
def capDelay (confirmed : Bool) (maxAckDelay delay : Nat) : Nat :=
  if confirmed = true then Nat.min delay maxAckDelay else delay

/-- The sample less the peer's delay (rtt.rs:101-104). -/
def adjust (sample minRtt delay : Nat) : Nat :=
  if sample ≥ minRtt + delay then sample - delay else sample

/-- Distance of two durations (`abs_diff`, rtt.rs:108-110). -/
def absDiff (a b : Nat) : Nat := (a - b) + (b - a)

/-- `RttStats::update_rtt` (rtt.rs:75-115). Duration arithmetic is done in whole
nanoseconds. -/
def Rtt.update (quarter half : Nat → Nat) (r : Rtt) (sample delay now : Nat) (confirmed : Bool) : Rtt :=
  if r.hasFirst = false then
    { r with latest := sample, minRtt := reset now sample, smoothed := sample, maxRtt := sample,
             rttvar := sample / 2, hasFirst := true }
  else
    let m := running (fun a b => decide (a ≤ b)) quarter half r.minRtt rttWindow ⟨now, sample⟩
    let adj := adjust sample m.estimate (capDelay confirmed r.maxAckDelay delay)
    { r with latest := sample, minRtt := m, maxRtt := Nat.max r.maxRtt sample,
             rttvar := r.rttvar * 3 / 4 + absDiff r.smoothed adj / 4,
             smoothed := r.smoothed * 7 / 8 + adj / 8 }

/-! ### ACK processing in one packet number space -/

/-- The running results of `detect_and_remove_acked_packets` (recovery.rs:103-109,
127-131, with the in-flight counter and the frame queue it changes). -/
structure AckAcc where
  count : Int
  bytes : Nat
  spurious : Nat
  thresh : Option Nat
  eliciting : Bool
  inFlightSpurious : Bool
  newly : List Acked
  frames : List Nat
  deriving DecidableEq, Repr

/-- Whether the fate of a packet is open. -/
def Sent.live (p : Sent) : Bool := p.timeAcked.isNone && p.timeLost.isNone

/-- A packet acknowledged for the first time (recovery.rs:184-207): what is recorded. -/
def ackNew (now : Nat) (a : AckAcc) (p : Sent) : AckAcc :=
  { a with count := if p.inFlight = true then a.count - 1 else a.count,
           bytes := if p.inFlight = true then a.bytes + p.size else a.bytes,
           newly := a.newly ++ [⟨p.pn, p.timeSent, p.size, now - p.timeSent, p.frames⟩],
           frames := a.frames ++ p.frames,
           eliciting := a.eliciting || p.ackEliciting }

/-- A packet acknowledged after having been declared lost (recovery.rs:173-182). -/
def ackSpurious (largest : Nat) (a : AckAcc) (p : Sent) : AckAcc :=
  { a with spurious := a.spurious + 1,
           thresh := some (a.thresh.getD (largest - p.pn + 1)),
           inFlightSpurious := a.inFlightSpurious || p.inFlight }

/-- One packet in an acknowledged range (recovery.rs:171-208). -/
def ackPkt (now largest : Nat) (a : AckAcc) (p : Sent) : AckAcc × Sent :=
  if p.timeAcked.isSome then (a, p)
  else if p.timeLost.isSome then (ackSpurious largest a p, { p with timeAcked := some now })
  else (ackNew now a p, { p with timeAcked := some now, frames := [] })

/-- One acknowledged range (recovery.rs:150-209). The list is in order of packet
numbers, so the binary search finds the first packet that is not below the range. -/
def ackRange (now largest lo hi : Nat) : AckAcc → List Sent → AckAcc × List Sent
  | a, [] => (a, [])
  | a, p :: l =>
    if p.pn < lo then ((ackRange now largest lo hi a l).1, p :: (ackRange now largest lo hi a l).2)
    else if p.pn ≥ hi then (a, p :: l)
    else
      ((ackRange now largest lo hi (ackPkt now largest a p).1 l).1,
       (ackPkt now largest a p).2 :: (ackRange now largest lo hi (ackPkt now largest a p).1 l).2)

/-- Whether a range holds the skipped packet number (recovery.rs:142). -/
def hitsSkip (skip : Option Nat) (lo hi : Nat) : Bool :=
  match skip with
  | none => false
  | some s => decide (lo ≤ s ∧ s < hi)

/-- All ranges, lowest first (recovery.rs:141-210); `true` when the skipped packet number
was acknowledged. What was done before that stays done. -/
def ackRanges (now largest : Nat) (skip : Option Nat) : List (Nat × Nat) → AckAcc → List Sent → Bool × AckAcc × List Sent
  | [], a, l => (false, a, l)
  | r :: rs, a, l =>
    if hitsSkip skip r.1 r.2 = true then (true, a, l)
    else ackRanges now largest skip rs (ackRange now largest r.1 r.2 a l).1 (ackRange now largest r.1 r.2 a l).2

/-- `drain_acked_and_lost_packets` (recovery.rs:305-327). -/
def drain (thresh : Nat) : List Sent → List Sent
  | [] => []
  | p :: l =>
    if (p.timeLost.any fun t => decide (t > thresh)) = true then p :: l
    else if p.live = true then p :: l
    else drain thresh l

/-- `RangeSet::last` (ranges.rs): the largest packet number of the ranges. -/
def lastOf (ranges : List (Nat × Nat)) : Nat := ((ranges.getLast?.map Prod.snd).getD 0) - 1

/-- `detect_and_remove_acked_packets` (recovery.rs:120-221). -/
def Space.acked (now rtt : Nat) (skip : Option Nat) (ranges : List (Nat × Nat)) (s : Space) : Bool × AckAcc × Space :=
  let largest := Nat.max (s.largestAcked.getD 0) (lastOf ranges)
  let r := ackRanges now largest skip ranges ⟨s.inFlightCount, 0, 0, none, false, false, [], s.ackedFrames⟩ s.sent
  let s' := { s with inFlightCount := r.2.1.count, ackedFrames := r.2.1.frames, sent := r.2.2 }
  if r.1 = true then (true, r.2.1, s') else (false, r.2.1, { s' with sent := drain (now - rtt) s'.sent })

/-! ### Loss detection in one packet number space -/

/-- The running results of `detect_lost_packets` (recovery.rs:111-116, 236-240, with the
counter, the loss time and the frame queue it changes). `lost` lists the packets declared
lost. -/
structure LossAcc where
  count : Int
  bytes : Nat
  probeBytes : Nat
  packets : Nat
  largest : Option Sent
  lossTime : Option Nat
  frames : List Nat
  lost : List Sent
  deriving DecidableEq, Repr

/-- A packet declared lost (recovery.rs:254-283). -/
def loseAcc (a : LossAcc) (p : Sent) : LossAcc :=
  if p.probe = true then
    { a with frames := a.frames ++ p.frames, probeBytes := a.probeBytes + p.size, count := a.count - 1, lost := a.lost ++ [p] }
  else if p.inFlight = true then
    { a with frames := a.frames ++ p.frames, bytes := a.bytes + p.size, largest := some p, count := a.count - 1,
             packets := a.packets + 1, lost := a.lost ++ [p] }
  else { a with frames := a.frames ++ p.frames, packets := a.packets + 1, lost := a.lost ++ [p] }

/-- The tests of recovery.rs:251-252. -/
def isLost (delay thresh now largest : Nat) (p : Sent) : Bool :=
  decide (p.timeSent ≤ now - delay ∨ largest ≥ p.pn + thresh)

/-- The earlier of a loss time already found and a new one (recovery.rs:285-290). -/
def earlier (o : Option Nat) (t : Nat) : Nat :=
  match o with
  | none => t
  | some u => Nat.min u t

/-- The loop of `detect_lost_packets` (recovery.rs:242-295). -/
def loseLoop (delay thresh now largest : Nat) : LossAcc → List Sent → LossAcc × List Sent
  | a, [] => (a, [])
  | a, p :: l =>
    if p.pn > largest then (a, p :: l)
    else if p.live = false then ((loseLoop delay thresh now largest a l).1, p :: (loseLoop delay thresh now largest a l).2)
    else if isLost delay thresh now largest p = true then
      ((loseLoop delay thresh now largest (loseAcc a p) l).1,
       { p with frames := [], timeLost := some now } :: (loseLoop delay thresh now largest (loseAcc a p) l).2)
    else ({ a with lossTime := some (earlier a.lossTime (p.timeSent + delay)) }, p :: l)

/-- `RecoveryEpoch::detect_lost_packets` (recovery.rs:223-303). -/
def Space.lose (delay thresh now : Nat) (s : Space) : LossAcc × Space :=
  let r := loseLoop (Nat.max delay granularity) thresh now (s.largestAcked.getD 0)
    ⟨s.inFlightCount, 0, 0, 0, none, none, s.lostAck, []⟩ s.sent
  (r.1, { s with inFlightCount := r.1.count, lossTime := r.1.lossTime, lostAck := r.1.frames, sent := r.2 })

/-! ### Bytes in flight -/

/-- `BytesInFlight` (bytes_in_flight.rs:36-51). -/
structure Bif where
  bytes : Nat
  start : Option Nat
  opened : Nat
  closed : Nat
  deriving DecidableEq, Repr

/-- `update_in_flight_duration` (bytes_in_flight.rs:90-101). -/
def Bif.updateDuration (b : Bif) (now : Nat) : Bif :=
  match b.start with
  | none => b
  | some t =>
    if b.bytes = 0 then { b with opened := 0, closed := b.closed + (now - t), start := none }
    else { b with opened := now - t }

/-- `BytesInFlight::add` (bytes_in_flight.rs:56-68). -/
def Bif.add (b : Bif) (delta now : Nat) : Bif :=
  if delta = 0 then b
  else if b.start.isSome then Bif.updateDuration { b with bytes := b.bytes + delta } now
  else { b with bytes := b.bytes + delta, start := some now }

/-- `saturating_subtract` (bytes_in_flight.rs:72-75). -/
def Bif.sub (b : Bif) (delta now : Nat) : Bif := Bif.updateDuration { b with bytes := b.bytes - delta } now

/-! ### Recovery on a path -/

/-- The congestion controller (`Congestion` and its `CongestionControlOps`,
congestion/mod.rs), as far as loss recovery calls it. -/
structure Cc (σ : Type) where
  onSent : σ → (flight sent now pn : Nat) → (inFlight : Bool) → σ
  inRecovery : σ → (timeSent : Nat) → Bool
  checkpoint : σ → σ
  event : σ → (flight lost timeSent now : Nat) → σ
  addLost : σ → Nat → σ
  rollback : σ → σ
  onAcked : σ → (flight : Nat) → List Acked → Rtt → (now : Nat) → σ

/-- The constants of a recovery: the controller, the scaling by the time thresholds (the
argument is whether the larger one is in use) and the parts of the RTT window. -/
structure Env (σ : Type) where
  cc : Cc σ
  scale : Bool → Nat → Nat
  quarter : Nat → Nat
  half : Nat → Nat

/-- `LegacyRecovery` (recovery.rs:355-391). `reordered` stands for the larger time
threshold. `failed` is set when the peer acknowledged the skipped packet number, upon
which the connection is closed. -/
structure State (σ : Type) where
  initial : Space
  handshake : Space
  application : Space
  timer : Option Nat
  ptoCount : Nat
  rtt : Rtt
  spuriousCount : Nat
  pktThresh : Nat
  reordered : Bool
  flight : Bif
  bytesSent : Nat
  nonEliciting : Nat
  cc : σ
  failed : Bool

variable {σ : Type}

/-- The space of an epoch. -/
def State.get (s : State σ) : Epoch → Space
  | .initial => s.initial
  | .handshake => s.handshake
  | .application => s.application

/-- Replaces the space of an epoch. -/
def State.set (s : State σ) (e : Epoch) (x : Space) : State σ :=
  match e with
  | .initial => { s with initial := x }
  | .handshake => { s with handshake := x }
  | .application => { s with application := x }

/-- `LegacyRecovery::new_with_config` (recovery.rs:394-433). -/
def State.new (t0 initialRtt maxAckDelay : Nat) (c : σ) : State σ :=
  { initial := Space.new, handshake := Space.new, application := Space.new, timer := none, ptoCount := 0,
    rtt := Rtt.new t0 initialRtt maxAckDelay, spuriousCount := 0, pktThresh := initialPacketThreshold,
    reordered := false, flight := ⟨0, none, 0, 0⟩, bytesSent := 0, nonEliciting := 0, cc := c, failed := false }

/-- `Option<Instant>` compared with `<`: `None` is below every time. -/
def optLt : Option Nat → Option Nat → Bool
  | none, none => false
  | none, some _ => true
  | some _, none => false
  | some a, some b => decide (a < b)

/-- One step of the loop of `loss_time_and_space` (recovery.rs:446-450). -/
def lossStep (s : State σ) (acc : Option Nat × Epoch) (e : Epoch) : Option Nat × Epoch :=
  if acc.1.isNone = true ∨ optLt (s.get e).lossTime acc.1 = true then ((s.get e).lossTime, e) else acc

/-- `loss_time_and_space` (recovery.rs:440-454). -/
def State.lossTimeAndSpace (s : State σ) : Option Nat × Epoch :=
  lossStep s (lossStep s (s.initial.lossTime, .initial) .handshake) .application

/-- `pto` (recovery.rs:912-914). -/
def State.pto (s : State σ) : Nat := s.rtt.smoothed + Nat.max (s.rtt.rttvar * 4) granularity

/-- `2_u32.saturating_pow` (recovery.rs:459, 488). -/
def pow2 (n : Nat) : Nat := Nat.min (2 ^ n) (2 ^ 32 - 1)

/-- The space probed when nothing is in flight (recovery.rs:463-467, 790-794). -/
def idleSpace (st : Status) : Epoch := if st.hasKeys = true then .handshake else .initial

/-- One step of the loop of `pto_time_and_space` (recovery.rs:491-498). -/
def ptoStep (s : State σ) (duration : Nat) (acc : Option Nat × Epoch) (e : Epoch) : Option Nat × Epoch :=
  if (s.get e).inFlightCount = 0 then acc
  else if acc.1.isNone = true ∨ optLt ((s.get e).lastEliciting.map (· + duration)) acc.1 = true then
    ((s.get e).lastEliciting.map (· + duration), e)
  else acc

/-- `pto_time_and_space` (recovery.rs:456-502). -/
def State.ptoTimeAndSpace (s : State σ) (st : Status) (now : Nat) : Option Nat × Epoch :=
  let duration := s.pto * pow2 s.ptoCount
  if s.flight.bytes = 0 then (some (now + duration), idleSpace st)
  else
    let acc := ptoStep s duration (ptoStep s duration (none, .initial) .initial) .handshake
    if st.completed = false then acc
    else ptoStep s (duration + s.rtt.maxAckDelay * pow2 s.ptoCount) acc .application

/-- The time `set_loss_detection_timer` computes (recovery.rs:504-529). -/
def State.timerFor (s : State σ) (st : Status) (now : Nat) : Option Nat :=
  if s.lossTimeAndSpace.1.isSome = true then s.lossTimeAndSpace.1
  else if s.flight.bytes = 0 ∧ st.peerVerified = true then none
  else (s.ptoTimeAndSpace st now).1

/-- `set_loss_detection_timer` (recovery.rs:504-529). -/
def State.setTimer (s : State σ) (st : Status) (now : Nat) : State σ := { s with timer := s.timerFor st now }

/-- What the congestion controller is told of a loss (recovery.rs:545-556). -/
def ccLoss (c : Cc σ) (x : σ) (flight : Nat) (a : LossAcc) (now : Nat) : σ :=
  match a.largest with
  | none => x
  | some p =>
    c.event (if c.inRecovery x p.timeSent = true then x else c.checkpoint x) flight a.bytes p.timeSent now

/-- The loss delay (recovery.rs:534-535). -/
def State.lossDelay (en : Env σ) (s : State σ) : Nat := en.scale s.reordered (Nat.max s.rtt.latest s.rtt.smoothed)

/-- The lost bytes leave the bytes in flight only together with a congestion event
(recovery.rs:545-563). -/
def bifLoss (b : Bif) (a : LossAcc) (now : Nat) : Bif :=
  (if a.largest.isSome = true then b.sub a.bytes now else b).sub a.probeBytes now

/-- `LegacyRecovery::detect_lost_packets` (recovery.rs:531-571). -/
def State.detectLost (en : Env σ) (s : State σ) (e : Epoch) (now : Nat) : LossAcc × State σ :=
  let r := (s.get e).lose (s.lossDelay en) s.pktThresh now
  (r.1, { s.set e { r.2 with sent := drain (now - s.rtt.smoothed) r.2.sent } with
            cc := en.cc.addLost (ccLoss en.cc s.cc s.flight.bytes r.1 now) r.1.packets,
            flight := bifLoss s.flight r.1 now })

/-- What the caller passes for a packet (lib.rs:5444-5462): the packet as written and
whether the frames in it are ack-eliciting or padding. -/
structure Pkt where
  pn : Nat
  frames : List Nat
  written : Nat
  ackEliciting : Bool
  inFlight : Bool
  hasData : Bool
  probe : Bool
  deriving DecidableEq, Repr

/-- The `Sent` made of a packet (lib.rs:5444-5462); `size` is 0 unless the packet is
ack-eliciting. -/
def Pkt.sent (p : Pkt) (now : Nat) : Sent :=
  { pn := p.pn, frames := p.frames, timeSent := now, timeAcked := none, timeLost := none,
    size := if p.ackEliciting = true then p.written else 0,
    ackEliciting := p.ackEliciting, inFlight := p.inFlight, hasData := p.hasData, probe := p.probe }

/-- The counters of a sent packet (recovery.rs:626-643, 652). -/
def State.sentCounters (en : Env σ) (s : State σ) (p : Sent) (now : Nat) : State σ :=
  { s with nonEliciting := if p.ackEliciting = true then 0 else s.nonEliciting + 1,
           cc := en.cc.onSent s.cc s.flight.bytes p.size now p.pn p.inFlight,
           bytesSent := s.bytesSent + p.size }

/-- A space in which a packet is sent, before it is appended (recovery.rs:632-634, 646). -/
def Space.onSent (x : Space) (p : Sent) (now : Nat) : Space :=
  { x with lastEliciting := if p.inFlight = true ∧ p.ackEliciting = true then some now else x.lastEliciting,
           inFlightCount := if p.inFlight = true then x.inFlightCount + 1 else x.inFlightCount }

/-- The bytes in flight and the timer of a sent packet (recovery.rs:645-650). -/
def State.sentInFlight (s : State σ) (p : Sent) (st : Status) (now : Nat) : State σ :=
  if p.inFlight = true then State.setTimer { s with flight := s.flight.add p.size now } st now else s

/-- `push_back` (recovery.rs:662). -/
def Space.push (x : Space) (p : Sent) : Space := { x with sent := x.sent ++ [p] }

/-- `on_packet_sent` (recovery.rs:618-665). -/
def State.onSent (en : Env σ) (s : State σ) (e : Epoch) (p : Sent) (st : Status) (now : Nat) : State σ :=
  let s := State.sentCounters en s p now
  let s := State.sentInFlight (s.set e ((s.get e).onSent p now)) p st now
  s.set e ((s.get e).push p)

/-- The reordering thresholds after a spurious loss, and the undone window
(recovery.rs:692-702). -/
def State.spurious (en : Env σ) (s : State σ) (a : AckAcc) : State σ :=
  { s with spuriousCount := s.spuriousCount + a.spurious,
           pktThresh := match a.thresh with
             | none => s.pktThresh
             | some t => Nat.max s.pktThresh (Nat.min t maxPacketThreshold),
           reordered := s.reordered || a.thresh.isSome,
           cc := if a.inFlightSpurious = true then en.cc.rollback s.cc else s.cc }

/-- The RTT sample of an ACK (recovery.rs:718-729). `ack_delay` is in microseconds. -/
def State.sample (en : Env σ) (s : State σ) (a : AckAcc) (last : Acked) (largest delay : Nat) (st : Status) (now : Nat) : Rtt :=
  if last.pn = largest ∧ a.eliciting = true then
    s.rtt.update en.quarter en.half (now - last.timeSent) (delay * 1000) now st.completed
  else s.rtt

/-- What happens in the world: the result of one call. -/
structure Out where
  /-- The packet number space concerned. -/
  epoch : Epoch
  /-- The packets acknowledged for the first time. -/
  acked : List Acked
  /-- The packets declared lost. -/
  lost : List Sent
  /-- The counts returned to the caller: lost packets, lost bytes, acknowledged bytes,
  spurious losses. -/
  counts : Nat × Nat × Nat × Nat
  deriving DecidableEq, Repr

/-- No packet changes its fate. -/
def Out.none : Out := ⟨.initial, [], [], 0, 0, 0, 0⟩

/-- The largest acknowledged packet and the RTT sample (recovery.rs:708-729). -/
def ackMid (en : Env σ) (s : State σ) (e : Epoch) (a : AckAcc) (last : Acked) (delay : Nat) (st : Status) (now : Nat) : State σ :=
  { s.set e { s.get e with largestAcked := some (Nat.max ((s.get e).largestAcked.getD 0) last.pn) } with
    rtt := s.sample en a last (Nat.max ((s.get e).largestAcked.getD 0) last.pn) delay st now }

/-- The rest after loss detection (recovery.rs:736-747). -/
def ackEnd (en : Env σ) (s : State σ) (a : AckAcc) (st : Status) (now : Nat) : State σ :=
  State.setTimer { s with cc := en.cc.onAcked s.cc s.flight.bytes a.newly s.rtt now,
                          flight := s.flight.sub a.bytes now, ptoCount := 0 } st now

/-- The rest of `on_ack_received` once a packet is newly acknowledged
(recovery.rs:708-757). -/
def State.ackTail (en : Env σ) (s : State σ) (e : Epoch) (a : AckAcc) (last : Acked) (delay : Nat) (st : Status) (now : Nat) :
    State σ × Out :=
  let r := (ackMid en s e a last delay st now).detectLost en e now
  let s := ackEnd en r.2 a st now
  (s.set e { s.get e with sent := drain (now - s.rtt.smoothed) (s.get e).sent },
   ⟨e, a.newly, r.1.lost, r.1.packets, r.1.bytes, a.bytes, a.spurious⟩)

/-- `on_ack_received` (recovery.rs:672-758). -/
def State.onAck (en : Env σ) (s : State σ) (e : Epoch) (ranges : List (Nat × Nat)) (delay : Nat) (st : Status) (now : Nat)
    (skip : Option Nat) : State σ × Out :=
  let r := (s.get e).acked now s.rtt.smoothed skip ranges
  if r.1 = true then ({ s.set e r.2.2 with failed := true }, ⟨e, r.2.1.newly, [], 0, 0, 0, 0⟩)
  else
    let s := (s.set e r.2.2).spurious en r.2.1
    match r.2.1.newly.getLast? with
    | none => (s, Out.none)
    | some last => s.ackTail en e r.2.1 last delay st now

/-- The frames of the packets probed for (recovery.rs:804-831). -/
def probeFrames (probes : Nat) (x : Space) : List Nat :=
  if x.lostPto = [] then ((x.sent.filter fun p => p.hasData && p.live).take probes).flatMap Sent.frames else []

/-- A probe timeout of a space (recovery.rs:797-831). -/
def Space.probe (count : Nat) (x : Space) : Space :=
  { x with lossProbes := Nat.min count maxPtoProbes,
           lostPto := x.lostPto ++ probeFrames (Nat.min count maxPtoProbes) x }

/-- The space a probe timeout is for (recovery.rs:780-795). -/
def State.ptoSpace (s : State σ) (st : Status) (now : Nat) : Epoch :=
  if s.flight.bytes > 0 then (s.ptoTimeAndSpace st now).2 else idleSpace st

/-- A probe timeout (recovery.rs:780-840). -/
def State.onPto (s : State σ) (st : Status) (now : Nat) : State σ :=
  let e := s.ptoSpace st now
  let s := { s with ptoCount := s.ptoCount + 1 }
  State.setTimer (s.set e ((s.get e).probe s.ptoCount)) st now

/-- `on_loss_detection_timeout` (recovery.rs:760-841). -/
def State.onTimeout (en : Env σ) (s : State σ) (st : Status) (now : Nat) : State σ × Out :=
  if s.lossTimeAndSpace.1.isSome = true then
    let r := s.detectLost en s.lossTimeAndSpace.2 now
    (r.2.setTimer st now, ⟨s.lossTimeAndSpace.2, [], r.1.lost, r.1.packets, r.1.bytes, 0, 0⟩)
  else (s.onPto st now, Out.none)

/-- The bytes of a discarded space that are in flight (recovery.rs:848-854). -/
def Space.unackedBytes (x : Space) : Nat := ((x.sent.filter fun p => p.inFlight && p.live).map Sent.size).sum

/-- A discarded space (recovery.rs:858-865). -/
def Space.discard (x : Space) : Space := { Space.new with largestAcked := x.largestAcked }

/-- `on_pkt_num_space_discarded` (recovery.rs:843-868). -/
def State.onDiscard (s : State σ) (e : Epoch) (st : Status) (now : Nat) : State σ :=
  State.setTimer { s.set e (s.get e).discard with flight := s.flight.sub (s.get e).unackedBytes now } st now

/-- `on_path_change` (recovery.rs:870-875). -/
def State.onPathChange (en : Env σ) (s : State σ) (e : Epoch) (now : Nat) : State σ × Out :=
  let r := s.detectLost en e now
  (r.2, ⟨e, [], r.1.lost, r.1.packets, r.1.bytes, 0, 0⟩)

/-- `ping_sent` (recovery.rs:613-616). -/
def State.pingSent (s : State σ) (e : Epoch) : State σ :=
  s.set e { s.get e with lossProbes := (s.get e).lossProbes - 1 }

/-- `next_acked_frame` (recovery.rs:583-585). -/
def State.nextAcked (s : State σ) (e : Epoch) : State σ := s.set e { s.get e with ackedFrames := (s.get e).ackedFrames.dropLast }

/-- `next_lost_frame` (recovery.rs:331-335) for a space. -/
def Space.nextLost (x : Space) : Space :=
  if x.lostAck = [] then { x with lostPto := x.lostPto.dropLast } else { x with lostAck := x.lostAck.dropLast }

/-! ### Histories -/

/-- The calls made by the connection. -/
inductive Op where
  | send (e : Epoch) (p : Pkt) (st : Status) (now : Nat)
  | ack (e : Epoch) (ranges : List (Nat × Nat)) (delay : Nat) (st : Status) (now : Nat) (skip : Option Nat)
  | timeout (st : Status) (now : Nat)
  | discard (e : Epoch) (st : Status) (now : Nat)
  | pathChange (e : Epoch) (now : Nat)
  | pingSent (e : Epoch)
  | nextAcked (e : Epoch)
  | nextLost (e : Epoch)
  | ackDelay (d : Nat)
  deriving DecidableEq, Repr

/-- One call. -/
def step (en : Env σ) (s : State σ) : Op → State σ × Out
  | .send e p st now => (s.onSent en e (p.sent now) st now, Out.none)
  | .ack e ranges delay st now skip => s.onAck en e ranges delay st now skip
  | .timeout st now => s.onTimeout en st now
  | .discard e st now => (s.onDiscard e st now, Out.none)
  | .pathChange e now => s.onPathChange en e now
  | .pingSent e => (s.pingSent e, Out.none)
  | .nextAcked e => (s.nextAcked e, Out.none)
  | .nextLost e => (s.set e (s.get e).nextLost, Out.none)
  | .ackDelay d => ({ s with rtt := { s.rtt with maxAckDelay := d } }, Out.none)

/-- A history of calls, and the outcome of each. -/
def run (en : Env σ) : State σ → List Op → State σ × List (Op × Out)
  | s, [] => (s, [])
  | s, o :: os => ((run en (step en s o).1 os).1, (o, (step en s o).2) :: (run en (step en s o).1 os).2)

end Verif.Rec
