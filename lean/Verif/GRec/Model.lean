import Verif.Rec.Model

/-!
Model of loss detection with BBR2 (`GRecovery`,
`/repo/quiche/src/recovery/gcongestion/recovery.rs`; lines below are of that file).

* Times and durations are nanoseconds, `Nat`. `now - d` is 0 when the clock is younger
  than `d`, where the Rust code panics (line 277).
* The pacer with its congestion controller is a parameter, so what is proved holds for
  every controller. All calls of it are also written to a log.
* `scale k d` stands for `d.mul_f64(k / 8)`: all time thresholds are multiples of 1/8.
* `pkts_in_flight` is an `Int`, so that a subtraction below zero, a panic or a wrap in
  Rust, is not hidden.
* RTT estimator, bytes in flight and the types shared with the other recovery are those
  of `Verif.Rec`.
-/

namespace Verif.GRec

open Verif.Rec (Epoch Status Rtt Bif optLt pow2 idleSpace hitsSkip lastOf granularity initialPacketThreshold maxPacketThreshold maxPtoProbes)

/-- A frame kept for a sent packet; DATAGRAM frames are told apart since a probe timeout
does not repeat them (985). -/
inductive Fr where
  | dgram (n : Nat)
  | other (n : Nat)
  deriving DecidableEq, Repr

/-- `Frame::DatagramHeader` (985). -/
def Fr.isDgram : Fr → Bool
  | .dgram _ => true
  | .other _ => false

/-- The contents of `SentStatus::Sent` (60-68). -/
structure Info where
  timeSent : Nat
  ackEliciting : Bool
  inFlight : Bool
  hasData : Bool
  probe : Bool
  size : Nat
  frames : List Fr
  deriving DecidableEq, Repr

/-- `SentStatus` (59-71). -/
inductive Fate where
  | sent (i : Info)
  | acked
  | lost
  deriving DecidableEq, Repr

/-- `SentPacket` (53-56). -/
structure Pk where
  pn : Nat
  st : Fate
  deriving DecidableEq, Repr

/-- `RecoveryEpoch` (88-118). -/
structure Space where
  lastEliciting : Option Nat
  largestAcked : Option Nat
  lossTime : Option Nat
  sent : List Pk
  lossProbes : Nat
  inFlightCount : Int
  ackedFrames : List Fr
  lostAck : List Fr
  lostPto : List Fr
  deriving DecidableEq, Repr

/-- `RecoveryEpoch::default` (87). -/
def Space.new : Space := ⟨none, none, none, [], 0, 0, [], [], []⟩

/-! ### ACK processing in one packet number space -/

/-- The running results of `detect_and_remove_acked_packets` (180-183, with the counter
and the queue it changes). `spurious` lists the packets counted by `spurious_losses`. -/
structure AckAcc where
  count : Int
  bytes : Nat
  spurious : List Nat
  thresh : Option Nat
  eliciting : Bool
  newly : List (Nat × Info)
  frames : List Fr
  deriving DecidableEq, Repr

/-- A packet acknowledged for the first time (221-243). -/
def ackNew (a : AckAcc) (pn : Nat) (i : Info) : AckAcc :=
  { a with count := if i.inFlight = true then a.count - 1 else a.count,
           bytes := if i.inFlight = true then a.bytes + i.size else a.bytes,
           newly := a.newly ++ [(pn, i)],
           frames := a.frames ++ i.frames,
           eliciting := a.eliciting || i.ackEliciting }

/-- A packet acknowledged after it was declared lost (246-251). -/
def ackSpurious (largest : Nat) (a : AckAcc) (pn : Nat) : AckAcc :=
  { a with spurious := a.spurious ++ [pn], thresh := some (a.thresh.getD (largest - pn + 1)) }

/-- One packet in an acknowledged range (220-252). -/
def ackPkt (largest : Nat) (a : AckAcc) (p : Pk) : AckAcc :=
  match p.st with
  | .sent i => ackNew a p.pn i
  | .acked => a
  | .lost => ackSpurious largest a p.pn

/-- One acknowledged range (200-257). The list is in order of packet numbers, so the
search finds the first packet that is not below the range. -/
def ackRange (largest lo hi : Nat) : AckAcc → List Pk → AckAcc × List Pk
  | a, [] => (a, [])
  | a, p :: l =>
    if p.pn < lo then ((ackRange largest lo hi a l).1, p :: (ackRange largest lo hi a l).2)
    else if p.pn < hi then
      ((ackRange largest lo hi (ackPkt largest a p) l).1, ⟨p.pn, .acked⟩ :: (ackRange largest lo hi (ackPkt largest a p) l).2)
    else (a, p :: l)

/-- All ranges, lowest first (191-257); `true` when the skipped packet number was
acknowledged. What was done before that stays done. -/
def ackRanges (largest : Nat) (skip : Option Nat) : List (Nat × Nat) → AckAcc → List Pk → Bool × AckAcc × List Pk
  | [], a, l => (false, a, l)
  | r :: rs, a, l =>
    if hitsSkip skip r.1 r.2 = true then (true, a, l)
    else ackRanges largest skip rs (ackRange largest r.1 r.2 a l).1 (ackRange largest r.1 r.2 a l).2

/-- `drain_acked_and_lost_packets` (342-350). -/
def drain : List Pk → List Pk
  | [] => []
  | p :: l =>
    match p.st with
    | .sent _ => p :: l
    | _ => drain l

/-- `detect_and_remove_acked_packets` (174-267). -/
def Space.acked (skip : Option Nat) (ranges : List (Nat × Nat)) (s : Space) : Bool × AckAcc × Space :=
  let largest := Nat.max (s.largestAcked.getD 0) (lastOf ranges)
  let r := ackRanges largest skip ranges ⟨s.inFlightCount, 0, [], none, false, [], s.ackedFrames⟩ s.sent
  let s' := { s with inFlightCount := r.2.1.count, ackedFrames := r.2.1.frames, sent := r.2.2 }
  if r.1 = true then (true, r.2.1, s') else (false, r.2.1, { s' with sent := drain s'.sent })

/-! ### Loss detection in one packet number space -/

/-- The running results of `detect_and_remove_lost_packets` (273-280, with the counter,
the loss time and the queue it changes). `lost` lists all packets declared lost,
`newly` what is told to the controller. -/
structure LossAcc where
  count : Int
  bytes : Nat
  probeBytes : Nat
  probes : List Nat
  newly : List (Nat × Nat)
  lossTime : Option Nat
  frames : List Fr
  lost : List (Nat × Info)
  deriving DecidableEq, Repr

/-- A packet declared lost (295-321). -/
def loseAcc (a : LossAcc) (pn : Nat) (i : Info) : LossAcc :=
  if i.inFlight = true then
    if i.probe = true then
      { a with frames := a.frames ++ i.frames, count := a.count - 1, probeBytes := a.probeBytes + i.size,
               probes := a.probes ++ [pn], lost := a.lost ++ [(pn, i)] }
    else
      { a with frames := a.frames ++ i.frames, count := a.count - 1, bytes := a.bytes + i.size,
               newly := a.newly ++ [(pn, i.size)], lost := a.lost ++ [(pn, i)] }
  else { a with frames := a.frames ++ i.frames, newly := a.newly ++ [(pn, i.size)], lost := a.lost ++ [(pn, i)] }

/-- The tests of 288-292. -/
def isLost (delay : Nat) (thresh : Option Nat) (now largest pn : Nat) (i : Info) : Bool :=
  decide (i.timeSent ≤ now - delay) || (match thresh with | some t => decide (largest ≥ pn + t) | none => false)

/-- The loop of `detect_and_remove_lost_packets` (282-328). -/
def loseLoop (delay : Nat) (thresh : Option Nat) (now largest : Nat) : LossAcc → List Pk → LossAcc × List Pk
  | a, [] => (a, [])
  | a, p :: l =>
    if p.pn > largest then (a, p :: l)
    else
      match p.st with
      | .sent i =>
        if isLost delay thresh now largest p.pn i = true then
          ((loseLoop delay thresh now largest (loseAcc a p.pn i) l).1,
           ⟨p.pn, .lost⟩ :: (loseLoop delay thresh now largest (loseAcc a p.pn i) l).2)
        else ({ a with lossTime := some (i.timeSent + delay) }, p :: l)
      | _ => ((loseLoop delay thresh now largest a l).1, p :: (loseLoop delay thresh now largest a l).2)

/-- `RecoveryEpoch::detect_and_remove_lost_packets` (269-337). -/
def Space.lose (delay : Nat) (thresh : Option Nat) (now : Nat) (s : Space) : LossAcc × Space :=
  let r := loseLoop delay thresh now (s.largestAcked.getD 0) ⟨s.inFlightCount, 0, 0, [], [], none, s.lostAck, []⟩ s.sent
  (r.1, { s with inFlightCount := r.1.count, lossTime := r.1.lossTime, lostAck := r.1.frames, sent := r.2 })

/-- `least_unacked` (352-364). -/
def leastIn (largest : Option Nat) : List Pk → Nat
  | [] => largest.getD 0 + 1
  | p :: l =>
    match p.st with
    | .sent _ => p.pn
    | _ => leastIn largest l

/-- `least_unacked` of a space (352-364). -/
def Space.leastUnacked (s : Space) : Nat := leastIn s.largestAcked s.sent

/-! ### The loss thresholds -/

/-- `LossThreshold` (392-405). The time threshold and its overhead are in eighths. -/
structure Thresh where
  pkt : Option Nat
  time : Nat
  overhead : Option Nat
  deriving DecidableEq, Repr

/-- `LossThreshold::new` (408-420; constants of recovery/mod.rs:60, 81). -/
def Thresh.new (relaxed : Bool) : Thresh := ⟨some initialPacketThreshold, 9, if relaxed = true then some 1 else none⟩

/-- `on_spurious_loss` (430-455; constants of recovery/mod.rs:73, 85). That the packet
threshold is missing although there is no overhead panics in Rust (447); it is `none`
here. -/
def Thresh.onSpurious (t : Thresh) (n : Nat) : Thresh :=
  match t.overhead with
  | some o =>
    if t.pkt.isSome = true then { t with pkt := none }
    else { t with overhead := some (Nat.min (o * 2) 8), time := 8 + Nat.min (o * 2) 8 }
  | none =>
    { t with pkt := t.pkt.map fun p => Nat.max p (Nat.min n maxPacketThreshold), time := 10 }

/-! ### Recovery on a path -/

/-- The calls of the pacer (pacer.rs:118, 199, 236, 240). -/
inductive Told where
  | sent (time flight pn bytes : Nat) (hasData : Bool)
  | event (rttUpdated : Bool) (prior flight now : Nat) (acked : List (Nat × Nat)) (lost : List (Nat × Nat)) (least : Nat)
  | neutered (pn : Nat)
  | rto (retransmitted : Bool)
  deriving DecidableEq, Repr

/-- The pacer and its controller, as far as loss recovery calls it. `sendTime` is the
time given to a packet (742-746). -/
structure Cc (σ : Type) where
  sendTime : σ → Nat → Nat
  tell : σ → Rtt → Told → σ

/-- The constants of a recovery: the controller, the scaling by a number of eighths and
the parts of the RTT window. -/
structure Env (σ : Type) where
  cc : Cc σ
  scale : Nat → Nat → Nat
  quarter : Nat → Nat
  half : Nat → Nat

/-- `GRecovery` (458-501). `failed` is set when the peer acknowledged the skipped packet
number, upon which the connection is closed. `log` holds what the controller was told. -/
structure State (σ : Type) where
  initial : Space
  handshake : Space
  application : Space
  timer : Option Nat
  ptoCount : Nat
  rtt : Rtt
  lostCount : Nat
  spuriousCount : Nat
  thresh : Thresh
  flight : Bif
  bytesSent : Nat
  nonEliciting : Nat
  cc : σ
  log : List Told
  failed : Bool

variable {σ : Type}

/-- The space of an epoch. -/
def State.get (s : State σ) : Epoch → Space
  | .initial => s.initial
  | .handshake => s.handshake
  | .application => s.application

/-- Replaces the space of an epoch. -/
def State.set (s : State σ) (e : Epoch) (x : Space) : State σ :=
  match e with
  | .initial => { s with initial := x }
  | .handshake => { s with handshake := x }
  | .application => { s with application := x }

/-- `GRecovery::new` (514-566). -/
def State.new (t0 initialRtt maxAckDelay : Nat) (relaxed : Bool) (c : σ) : State σ :=
  { initial := Space.new, handshake := Space.new, application := Space.new, timer := none, ptoCount := 0,
    rtt := Rtt.new t0 initialRtt maxAckDelay, lostCount := 0, spuriousCount := 0, thresh := Thresh.new relaxed,
    flight := ⟨0, none, 0, 0⟩, bytesSent := 0, nonEliciting := 0, cc := c, log := [], failed := false }

/-- A call of the pacer. -/
def State.tell (en : Env σ) (s : State σ) (t : Told) : State σ :=
  { s with cc := en.cc.tell s.cc s.rtt t, log := s.log ++ [t] }

/-- `on_packet_neutered` for some packets (590-592, 153). -/
def State.neuter (en : Env σ) (s : State σ) : List Nat → State σ
  | [] => s
  | pn :: l => (s.tell en (.neutered pn)).neuter en l

/-- One step of the loop of `loss_time_and_space` (602-608). -/
def lossStep (s : State σ) (acc : Option Nat × Epoch) (e : Epoch) : Option Nat × Epoch :=
  if acc.1.isNone = true ∨ optLt (s.get e).lossTime acc.1 = true then ((s.get e).lossTime, e) else acc

/-- `loss_time_and_space` (597-611). -/
def State.lossTimeAndSpace (s : State σ) : Option Nat × Epoch :=
  lossStep s (lossStep s (s.initial.lossTime, .initial) .handshake) .application

/-- `pto` (1060-1063). -/
def State.pto (s : State σ) : Nat := s.rtt.smoothed + Nat.max (s.rtt.rttvar * 4) granularity

/-- One step of the loop of `pto_time_and_space` (634-656). -/
def ptoStep (s : State σ) (duration : Nat) (acc : Option Nat × Epoch) (e : Epoch) : Option Nat × Epoch :=
  if (s.get e).inFlightCount = 0 then acc
  else if acc.1.isNone = true ∨ optLt ((s.get e).lastEliciting.map (· + duration)) acc.1 = true then
    ((s.get e).lastEliciting.map (· + duration), e)
  else acc

/-- `pto_time_and_space` (613-660). -/
def State.ptoTimeAndSpace (s : State σ) (st : Status) (now : Nat) : Option Nat × Epoch :=
  let duration := s.pto * pow2 s.ptoCount
  if s.flight.bytes = 0 then (some (now + duration), idleSpace st)
  else
    let acc := ptoStep s duration (ptoStep s duration (none, .initial) .initial) .handshake
    if st.completed = false then acc
    else ptoStep s (duration + s.rtt.maxAckDelay * pow2 s.ptoCount) acc .application

/-- The time `set_loss_detection_timer` computes (662-685). -/
def State.timerFor (s : State σ) (st : Status) (now : Nat) : Option Nat :=
  if s.lossTimeAndSpace.1.isSome = true then s.lossTimeAndSpace.1
  else if s.flight.bytes = 0 ∧ st.peerVerified = true then none
  else (s.ptoTimeAndSpace st now).1

/-- `set_loss_detection_timer` (662-685). -/
def State.setTimer (s : State σ) (st : Status) (now : Nat) : State σ := { s with timer := s.timerFor st now }

/-- The loss delay (571-572; rtt.rs:146-151). -/
def State.lossDelay (en : Env σ) (s : State σ) : Nat :=
  Nat.max (en.scale s.thresh.time (Nat.max s.rtt.latest s.rtt.smoothed)) granularity

/-- `GRecovery::detect_and_remove_lost_packets` (568-595). -/
def State.detectLost (en : Env σ) (s : State σ) (e : Epoch) (now : Nat) : LossAcc × State σ :=
  let r := (s.get e).lose (s.lossDelay en) s.thresh.pkt now
  (r.1, State.neuter en { s.set e r.2 with flight := s.flight.sub (r.1.bytes + r.1.probeBytes) now } r.1.probes)

/-- What the caller passes for a packet (lib.rs:5436-5462): the packet as written, whether
the frames in it are ack-eliciting or padding, and whether it has stream, CRYPTO or
DATAGRAM frames. -/
structure Pkt where
  pn : Nat
  frames : List Fr
  written : Nat
  ackEliciting : Bool
  inFlight : Bool
  hasData : Bool
  probe : Bool
  deriving DecidableEq, Repr

/-- What is recorded of a packet (750-768; lib.rs:5449); `size` is 0 unless the packet is
ack-eliciting. -/
def Pkt.info (p : Pkt) (time : Nat) : Info :=
  { timeSent := time, ackEliciting := p.ackEliciting, inFlight := p.inFlight, hasData := p.hasData, probe := p.probe,
    size := if p.ackEliciting = true then p.written else 0, frames := p.frames }

/-- The space in which a packet is sent (777-780, 797). -/
def Space.onSent (x : Space) (pn : Nat) (i : Info) : Space :=
  { x with sent := x.sent ++ [⟨pn, .sent i⟩],
           lastEliciting := if i.ackEliciting = true then some i.timeSent else x.lastEliciting,
           inFlightCount := if i.inFlight = true then x.inFlightCount + 1 else x.inFlightCount }

/-- What depends on the packet being in flight (786-799). -/
def State.sentInFlight (en : Env σ) (s : State σ) (pn : Nat) (i : Info) (st : Status) (now : Nat) : State σ :=
  if i.inFlight = true then
    let s := s.tell en (.sent i.timeSent s.flight.bytes pn i.size i.hasData)
    State.setTimer { s with flight := s.flight.add i.size now } st i.timeSent
  else s

/-- `on_packet_sent` (738-804). -/
def State.onSent (en : Env σ) (s : State σ) (e : Epoch) (p : Pkt) (st : Status) (now : Nat) : State σ :=
  let i := p.info (en.cc.sendTime s.cc now)
  let s := s.set e ((s.get e).onSent p.pn i)
  let s := State.sentInFlight en { s with nonEliciting := if i.ackEliciting = true then 0 else s.nonEliciting + 1 } p.pn i st now
  { s with bytesSent := s.bytesSent + i.size }

/-- The queue a frame is handed out from (704, 369-371). -/
inductive Src where
  | acked
  | lost
  | pto
  deriving DecidableEq, Repr

/-- What a call does to packets: what is recorded of a packet sent, the packets
acknowledged for the first time, those declared lost, those forgotten with their space,
those acknowledged although declared lost; the frame handed out; and the counts returned
(lost packets, lost bytes, acknowledged bytes, spurious losses). -/
structure Out where
  epoch : Epoch
  sent : List (Nat × Info)
  acked : List (Nat × Info)
  lost : List (Nat × Info)
  dropped : List (Nat × Info)
  spurious : List Nat
  handed : Option (Src × Fr)
  counts : Nat × Nat × Nat × Nat
  deriving DecidableEq, Repr

/-- Nothing is decided. -/
def Out.none : Out := ⟨.initial, [], [], [], [], [], .none, 0, 0, 0, 0⟩

/-- The thresholds and the count after the ACK detection (830-833). -/
def State.spurious (s : State σ) (a : AckAcc) : State σ :=
  { s with spuriousCount := s.spuriousCount + a.spurious.length,
           thresh := match a.thresh with
             | none => s.thresh
             | some n => s.thresh.onSpurious n }

/-- Whether an RTT sample is taken (856-857). -/
def rttUpdated (a : AckAcc) (last : Nat × Info) (largest : Nat) : Bool := decide (last.1 = largest) && a.eliciting

/-- The bytes in flight, the largest acknowledged packet and the RTT sample of an ACK
(843-866). `ack_delay` is in microseconds. -/
def State.ackMid (en : Env σ) (s : State σ) (e : Epoch) (a : AckAcc) (last : Nat × Info) (delay : Nat) (st : Status) (now : Nat) :
    State σ :=
  let largest := Nat.max ((s.get e).largestAcked.getD 0) last.1
  { s.set e { s.get e with largestAcked := some largest } with
    flight := s.flight.sub a.bytes now,
    rtt := if rttUpdated a last largest = true then
        s.rtt.update en.quarter en.half (now - last.2.timeSent) (delay * 1000) now st.completed
      else s.rtt }

/-- The rest of `on_ack_received` once a packet is newly acknowledged (843-896). -/
def State.ackTail (en : Env σ) (s : State σ) (prior : Nat) (e : Epoch) (a : AckAcc) (last : Nat × Info) (delay : Nat)
    (st : Status) (now : Nat) : State σ × Out :=
  let u := rttUpdated a last (Nat.max ((s.get e).largestAcked.getD 0) last.1)
  let r := (s.ackMid en e a last delay st now).detectLost en e now
  let s := r.2.tell en (.event u prior r.2.flight.bytes now (a.newly.map fun x => (x.1, x.2.timeSent)) r.1.newly
    (r.2.get e).leastUnacked)
  (State.setTimer { s with ptoCount := 0, lostCount := s.lostCount + r.1.newly.length } st now,
   ⟨e, [], a.newly, r.1.lost, [], a.spurious, .none, r.1.newly.length, r.1.bytes, a.bytes, a.spurious.length⟩)

/-- `on_ack_received` (811-896). -/
def State.onAck (en : Env σ) (s : State σ) (e : Epoch) (ranges : List (Nat × Nat)) (delay : Nat) (st : Status) (now : Nat)
    (skip : Option Nat) : State σ × Out :=
  let prior := s.flight.bytes
  let r := (s.get e).acked skip ranges
  if r.1 = true then ({ s.set e r.2.2 with failed := true }, ⟨e, [], r.2.1.newly, [], [], r.2.1.spurious, .none, 0, 0, 0, 0⟩)
  else
    let s := (s.set e r.2.2).spurious r.2.1
    match r.2.1.newly.getLast? with
    | none => (s, ⟨e, [], [], [], [], r.2.1.spurious, .none, 0, 0, r.2.1.bytes, r.2.1.spurious.length⟩)
    | some last => s.ackTail en prior e r.2.1 last delay st now

/-- The packets a probe timeout looks at (967-983). -/
def probed (probes : Nat) (l : List Pk) : List (List Fr) :=
  (l.filterMap fun p => match p.st with | .sent i => if i.hasData = true then some i.frames else none | _ => none).take probes

/-- A probe timeout of a space (954-994). -/
def Space.onProbe (count : Nat) (x : Space) : Space :=
  let n := Nat.min maxPtoProbes count
  { x with lossProbes := n,
           lostPto := x.lostPto ++ if x.lostPto = [] then ((probed n x.sent).flatten.filter fun f => !f.isDgram) else [] }

/-- `has_lost_frames` (375-377). -/
def Space.hasLost (x : Space) : Bool := !x.lostAck.isEmpty || !x.lostPto.isEmpty

/-- The space a probe timeout is for (933-948). -/
def State.ptoSpace (s : State σ) (st : Status) (now : Nat) : Epoch :=
  if s.flight.bytes > 0 then (s.ptoTimeAndSpace st now).2 else idleSpace st

/-- A probe timeout (933-1005). -/
def State.onPto (en : Env σ) (s : State σ) (st : Status) (now : Nat) : State σ :=
  let e := s.ptoSpace st now
  let x := (s.get e).onProbe (s.ptoCount + 1)
  State.setTimer (State.tell en ({ s with ptoCount := s.ptoCount + 1 }.set e x) (.rto x.hasLost)) st now

/-- `on_loss_detection_timeout` (898-1006). -/
def State.onTimeout (en : Env σ) (s : State σ) (st : Status) (now : Nat) : State σ × Out :=
  if s.lossTimeAndSpace.1.isSome = true then
    let e := s.lossTimeAndSpace.2
    let prior := s.flight.bytes
    let r := s.detectLost en e now
    let s := r.2.tell en (.event false prior r.2.flight.bytes now [] r.1.newly (r.2.get e).leastUnacked)
    (State.setTimer { s with lostCount := s.lostCount + r.1.newly.length } st now,
     ⟨e, [], [], r.1.lost, [], [], .none, r.1.newly.length, r.1.bytes, 0, 0⟩)
  else (s.onPto en st now, Out.none)

/-- The packets of a space whose fate is open. -/
def openOf : List Pk → List (Nat × Info)
  | [] => []
  | p :: l =>
    match p.st with
    | .sent i => (p.pn, i) :: openOf l
    | _ => openOf l

/-- The bytes of a discarded space that are in flight (139-160). -/
def Space.unackedBytes (x : Space) : Nat :=
  ((openOf x.sent).map fun p => if p.2.inFlight = true then p.2.size else 0).sum

/-- A discarded space (162-168). -/
def Space.discard (x : Space) : Space := { Space.new with largestAcked := x.largestAcked }

/-- `on_pkt_num_space_discarded` (1008-1016). -/
def State.onDiscard (en : Env σ) (s : State σ) (e : Epoch) (st : Status) (now : Nat) : State σ × Out :=
  let x := s.get e
  let s := State.neuter en (s.set e x.discard) ((openOf x.sent).map Prod.fst)
  (State.setTimer { s with flight := s.flight.sub x.unackedBytes now } st now, ⟨e, [], [], [], openOf x.sent, [], .none, 0, 0, 0, 0⟩)

/-- `on_path_change` (1018-1025). -/
def State.onPathChange (en : Env σ) (s : State σ) (e : Epoch) (now : Nat) : State σ × Out :=
  let r := s.detectLost en e now
  (r.2, ⟨e, [], [], r.1.lost, [], [], .none, r.1.newly.length, r.1.bytes, 0, 0⟩)

/-- `ping_sent` (733-736). -/
def State.pingSent (s : State σ) (e : Epoch) : State σ :=
  s.set e { s.get e with lossProbes := (s.get e).lossProbes - 1 }

/-- `next_acked_frame` (703-705). -/
def Space.nextAcked (x : Space) : Space × Option (Src × Fr) :=
  match x.ackedFrames with
  | [] => (x, none)
  | f :: l => ({ x with ackedFrames := l }, some (.acked, f))

/-- `next_lost_frame` (368-372). -/
def Space.nextLost (x : Space) : Space × Option (Src × Fr) :=
  match x.lostAck, x.lostPto with
  | f :: l, _ => ({ x with lostAck := l }, some (.lost, f))
  | [], f :: l => ({ x with lostPto := l }, some (.pto, f))
  | [], [] => (x, none)

/-! ### Histories -/

/-- The calls made by the connection. -/
inductive Op where
  | send (e : Epoch) (p : Pkt) (st : Status) (now : Nat)
  | ack (e : Epoch) (ranges : List (Nat × Nat)) (delay : Nat) (st : Status) (now : Nat) (skip : Option Nat)
  | timeout (st : Status) (now : Nat)
  | discard (e : Epoch) (st : Status) (now : Nat)
  | pathChange (e : Epoch) (now : Nat)
  | pingSent (e : Epoch)
  | nextAcked (e : Epoch)
  | nextLost (e : Epoch)
  | ackDelay (d : Nat)
  deriving DecidableEq, Repr

/-- One call. -/
def step (en : Env σ) (s : State σ) : Op → State σ × Out
  | .send e p st now =>
    (s.onSent en e p st now, { Out.none with epoch := e, sent := [(p.pn, p.info (en.cc.sendTime s.cc now))] })
  | .ack e ranges delay st now skip => s.onAck en e ranges delay st now skip
  | .timeout st now => s.onTimeout en st now
  | .discard e st now => s.onDiscard en e st now
  | .pathChange e now => s.onPathChange en e now
  | .pingSent e => (s.pingSent e, Out.none)
  | .nextAcked e => (s.set e (s.get e).nextAcked.1, { Out.none with epoch := e, handed := (s.get e).nextAcked.2 })
  | .nextLost e => (s.set e (s.get e).nextLost.1, { Out.none with epoch := e, handed := (s.get e).nextLost.2 })
  | .ackDelay d => ({ s with rtt := { s.rtt with maxAckDelay := d } }, Out.none)

/-- A history of calls, and the outcome of each. -/
def run (en : Env σ) : State σ → List Op → State σ × List (Op × Out)
  | s, [] => (s, [])
  | s, o :: os => ((run en (step en s o).1 os).1, (o, (step en s o).2) :: (run en (step en s o).1 os).2)

end Verif.GRec
