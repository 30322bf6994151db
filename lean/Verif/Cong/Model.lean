import Verif.Rec.Model

/-!
Model of the congestion controllers Reno and CUBIC
(`/repo/quiche/src/recovery/congestion/{mod,reno,cubic,hystart,prr}.rs`) and of what
`recovery.rs` does with the congestion window.

* A controller is an instance of `Verif.Rec.Cc`, so that the histories are those of loss
  recovery (`Verif.Rec.step`): packets sent, ACKs, loss timers.
* The floating point curve of CUBIC is a parameter `Curve φ`: what is proved holds for all
  values that the floating point operations may return. What is done with them in
  `usize` arithmetic is modelled. `(x as f64 * 0.5) as usize` is `x / 2` and clipping to
  `1.5 * x` is `x * 3 / 2`, which is exact below 2^53 bytes.
* `usize` is `Nat`; `lost_count - prior.lost_count` (cubic.rs:239) is truncated, and shown
  not to be below zero in `Verif.Props.C122`.
* Not modelled: the delivery rate (`delivery_rate.rs`), the send quantum, tracing.
-/

namespace Verif.Cong

open Verif.Rec

/-- `usize::MAX`, the slow start threshold before the first loss (mod.rs:49-56). -/
abbrev usizeMax : Nat := 18446744073709551615
/-- `MINIMUM_WINDOW_PACKETS` (recovery/mod.rs:91). -/
abbrev minPackets : Nat := 2

/-! ### Proportional rate reduction -/

/-- `PRR` (prr.rs:36-48). -/
structure Prr where
  delivered : Nat
  recoverfs : Nat
  out : Nat
  sndCnt : Nat
  deriving DecidableEq, Repr

/-- `PRR::on_packet_sent` (prr.rs:51-55). -/
def Prr.onSent (p : Prr) (n : Nat) : Prr := { p with out := p.out + n, sndCnt := p.sndCnt - n }

/-- `PRR::congestion_event` (prr.rs:57-65). -/
def Prr.event (flight : Nat) : Prr := ⟨0, flight, 0, 0⟩

/-- `PRR::on_packet_acked` (prr.rs:67-97). -/
def Prr.onAcked (p : Prr) (n pipe ssthresh mds : Nat) : Prr :=
  { p with
    delivered := p.delivered + n,
    sndCnt :=
      if pipe > ssthresh then
        if p.recoverfs > 0 then ((p.delivered + n) * ssthresh + p.recoverfs - 1) / p.recoverfs - p.out else 0
      else Nat.min (ssthresh - pipe) (Nat.max (p.delivered + n - p.out) n + mds) }

/-! ### HyStart++ -/

/-- `MIN_RTT_THRESH` (hystart.rs:40), 4 ms. -/
abbrev minRttThresh : Nat := 4000000
/-- `MAX_RTT_THRESH` (hystart.rs:42), 16 ms. -/
abbrev maxRttThresh : Nat := 16000000
/-- `N_RTT_SAMPLE` (hystart.rs:44). -/
abbrev nRttSample : Nat := 8
/-- `CSS_GROWTH_DIVISOR` (hystart.rs:46). -/
abbrev cssDivisor : Nat := 4
/-- `CSS_ROUNDS` (hystart.rs:48). -/
abbrev cssRounds : Nat := 5

/-- `Hystart` (hystart.rs:51-67). `none` is `Duration::MAX`. -/
structure Hystart where
  enabled : Bool
  windowEnd : Option Nat
  lastMin : Option Nat
  curMin : Option Nat
  baseMin : Option Nat
  samples : Nat
  cssStart : Option Nat
  rounds : Nat
  deriving DecidableEq, Repr

/-- `Hystart::new` (hystart.rs:84-96). -/
def Hystart.new (enabled : Bool) : Hystart := ⟨enabled, none, none, none, none, 0, none, 0⟩

/-- `in_css` (hystart.rs:106-108). -/
def Hystart.inCss (h : Hystart) : Bool := h.enabled && h.cssStart.isSome

/-- `start_round` (hystart.rs:110-120). -/
def Hystart.startRound (h : Hystart) (pn : Nat) : Hystart :=
  if h.windowEnd.isNone = true then { h with windowEnd := some pn, lastMin := h.curMin, curMin := none, samples := 0 } else h

/-- The threshold for entering conservative slow start (hystart.rs:140-144). -/
def rttThresh (last : Nat) : Nat := Nat.min (Nat.max (last / 8) minRttThresh) maxRttThresh

/-- The RTT sample of an acknowledged packet (hystart.rs:130-132). -/
def Hystart.sample (h : Hystart) (rtt : Nat) : Hystart :=
  { h with curMin := some (match h.curMin with | none => rtt | some c => Nat.min c rtt), samples := h.samples + 1 }

/-- Whether the round is slower than the one before (hystart.rs:136-148). -/
def Hystart.slower (h : Hystart) : Bool :=
  match h.curMin, h.lastMin with
  | some c, some l => decide (h.samples ≥ nRttSample) && decide (c ≥ l + rttThresh l)
  | _, _ => false

/-- Whether the round is faster than the one in which conservative slow start began
(hystart.rs:159). -/
def Hystart.faster (h : Hystart) : Bool :=
  match h.curMin, h.baseMin with
  | some c, some b => decide (c < b)
  | some _, none => true
  | none, _ => false

/-- Entering and leaving conservative slow start (hystart.rs:134-167). -/
def Hystart.phase (h : Hystart) (now : Nat) : Hystart :=
  if h.cssStart.isNone = true then
    if h.slower = true then { h with baseMin := h.curMin, cssStart := some now } else h
  else if h.samples ≥ nRttSample then
    if h.faster = true then { h with samples := 0, baseMin := none, cssStart := none, rounds := 0 }
    else { h with samples := 0 }
  else h

/-- The end of a round (hystart.rs:169-187); `true` when congestion avoidance is to be
entered. -/
def Hystart.roundEnd (h : Hystart) (pn : Nat) : Bool × Hystart :=
  match h.windowEnd with
  | none => (false, h)
  | some w =>
    if pn ≥ w then
      if h.cssStart.isSome = true then
        if h.rounds + 1 ≥ cssRounds then (true, { h with windowEnd := none, rounds := 0 })
        else (false, { h with windowEnd := none, rounds := h.rounds + 1 })
      else (false, { h with windowEnd := none })
    else (false, h)

/-- `Hystart::on_packet_acked` (hystart.rs:122-188). -/
def Hystart.onAcked (h : Hystart) (pn rtt now : Nat) : Bool × Hystart :=
  if h.enabled = false then (false, h) else ((h.sample rtt).phase now).roundEnd pn

/-- `Hystart::congestion_event` (hystart.rs:195-199). -/
def Hystart.event (h : Hystart) : Hystart := { h with windowEnd := none, cssStart := none }

/-! ### The state of a controller -/

/-- The floating point part of CUBIC (cubic.rs:82-90, 130-153): `w_max`, `k`, `w_est` and
`alpha_aimd`, and what is computed from them.

* `unset`: `w_max == 0.0` (cubic.rs:284)
* `start`: congestion avoidance begins without a congestion event (cubic.rs:285-289, 300-304)
* `event`: the window shrinks from the first to the second value (cubic.rs:367-393)
* `grow`: `w_est` and `alpha_aimd` with an acknowledged packet (cubic.rs:320-330)
* `target`: `w_cubic(t) as usize`
* `friendly`: `w_est as usize` if `w_cubic(t) < w_est` (cubic.rs:334-336)
* `restore`: `w_max` and `k` of the first, the rest of the second (cubic.rs:423-424)
* `beta`: `(x as f64 * BETA_CUBIC) as usize`. -/
structure Curve (φ : Type) where
  zero : φ
  unset : φ → Bool
  start : φ → (cwnd : Nat) → φ
  event : φ → (before after mds : Nat) → φ
  grow : φ → (acked cwnd mds : Nat) → φ
  target : φ → (t mds : Nat) → Nat
  friendly : φ → (t mds : Nat) → Option Nat
  restore : φ → φ → φ
  beta : Nat → Nat

/-- `PriorState` (cubic.rs:111-123). -/
structure Prior (φ : Type) where
  cwnd : Nat
  ssthresh : Nat
  curve : φ
  epochStart : Option Nat
  lost : Nat

/-- `Congestion` (mod.rs:83-121) with `cubic::State` (cubic.rs:82-105). `exit` is
`startup_exit`: the window, and whether conservative slow start was on. -/
structure St (φ : Type) where
  cwnd : Nat
  ssthresh : Nat
  exit : Option (Nat × Bool)
  ackedSl : Nat
  ackedCa : Nat
  recStart : Option Nat
  appLimited : Bool
  initPkts : Nat
  mds : Nat
  lostCount : Nat
  idleFix : Bool
  hy : Hystart
  prr : Prr
  curve : φ
  lastSent : Option Nat
  lastAck : Option Nat
  cwndInc : Nat
  prior : Prior φ

variable {φ : Type}

/-- `Congestion::from_config` (mod.rs:124-167). -/
def St.new (f : Curve φ) (size initPkts : Nat) (hystart idleFix : Bool) : St φ :=
  { cwnd := size * initPkts, ssthresh := usizeMax, exit := none, ackedSl := 0, ackedCa := 0, recStart := none,
    appLimited := false, initPkts := initPkts, mds := size, lostCount := 0, idleFix := idleFix, hy := Hystart.new hystart,
    prr := ⟨0, 0, 0, 0⟩, curve := f.zero, lastSent := none, lastAck := none, cwndInc := 0,
    prior := ⟨0, 0, f.zero, none, 0⟩ }

/-- `in_congestion_recovery` (mod.rs:169-176). -/
def St.inRecovery (s : St φ) (t : Nat) : Bool :=
  match s.recStart with
  | none => false
  | some r => decide (t ≤ r)

/-- `SsThresh::update` (mod.rs:67-80). -/
def St.setThresh (s : St φ) (n : Nat) (css : Bool) : St φ :=
  { s with exit := some (s.exit.getD (n, css)), ssthresh := n }

/-- HyStart++ in slow start (reno.rs:94-97, cubic.rs:271-274). -/
def St.hyAck (s : St φ) (p : Acked) (rtt now : Nat) : St φ :=
  let r := s.hy.onAcked p.pn rtt now
  if r.1 = true then { s with hy := r.2 }.setThresh s.cwnd true else { s with hy := r.2 }

/-- `css_cwnd_inc` or a whole datagram (reno.rs:88-92, cubic.rs:261-266). -/
def St.slowInc (s : St φ) : Nat := if s.hy.inCss = true then s.mds / cssDivisor else s.mds

/-- HyStart++ is told of a congestion event only while in conservative slow start
(reno.rs:133-135, cubic.rs:394-396). -/
def St.hyEvent (s : St φ) : St φ := if s.hy.inCss = true then { s with hy := s.hy.event } else s

/-! ### Reno -/

/-- `reno::on_packet_acked` (reno.rs:72-107). -/
def renoAck (now : Nat) (r : Rtt) (s : St φ) (p : Acked) : St φ :=
  if s.inRecovery p.timeSent = true then s
  else if s.appLimited = true then s
  else if s.cwnd < s.ssthresh then
    { s with ackedSl := s.ackedSl + p.size, cwnd := s.cwnd + s.slowInc }.hyAck p r.latest now
  else if s.ackedCa + p.size ≥ s.cwnd then
    { s with ackedCa := s.ackedCa + p.size - s.cwnd, cwnd := s.cwnd + s.mds }
  else { s with ackedCa := s.ackedCa + p.size }

/-- The window of Reno after a congestion event (reno.rs:120-126). -/
def renoCut (s : St φ) : Nat := Nat.max (s.cwnd / 2) (s.mds * minPackets)

/-- `reno::congestion_event` (reno.rs:109-137). -/
def renoEvent (s : St φ) (timeSent now : Nat) : St φ :=
  if s.inRecovery timeSent = true then s
  else
    ({ s with recStart := some now, cwnd := renoCut s, ackedCa := renoCut s / 2 }.setThresh (renoCut s) s.hy.inCss).hyEvent

/-! ### CUBIC -/

/-- When idle began (cubic.rs:181-185); `cmp::max` of two options. -/
def St.idleStart (s : St φ) : Option Nat :=
  if s.idleFix = true then
    match s.lastAck, s.lastSent with
    | some a, some b => some (Nat.max a b)
    | some a, none => some a
    | none, b => b
  else s.lastSent

/-- The start of the curve after an idle time (cubic.rs:173-195). -/
def St.shifted (s : St φ) (flight now : Nat) : Option Nat :=
  match s.recStart, s.idleStart with
  | some r, some i => if flight = 0 ∧ i < now then some (r + (now - i)) else some r
  | r, _ => r

/-- `cubic::on_packet_sent` (cubic.rs:157-198). -/
def cubicSent (s : St φ) (sent flight now : Nat) : St φ :=
  if sent = 0 ∧ s.idleFix = true then s
  else { s with recStart := s.shifted flight now, lastSent := some now }

/-- The number of lost packets below which a reduction is undone (cubic.rs:241-245). -/
def St.undoThreshold (s : St φ) : Nat := Nat.max (s.cwnd / s.mds * 20 / 100) 2

/-- `cubic::rollback` (cubic.rs:411-428). -/
def cubicRollback (f : Curve φ) (s : St φ) : Bool × St φ :=
  if s.prior.cwnd < s.prior.ssthresh then (false, s)
  else if s.cwnd ≥ s.prior.cwnd then (false, s)
  else
    (true, { { s with cwnd := s.prior.cwnd }.setThresh s.prior.ssthresh false with
              curve := f.restore s.prior.curve s.curve, recStart := s.prior.epochStart })

/-- Undoing a reduction at the end of recovery (cubic.rs:238-253). -/
def cubicUndo (f : Curve φ) (s : St φ) : Bool × St φ :=
  if s.recStart.isSome = true ∧ s.lostCount - s.prior.lost < s.undoThreshold then cubicRollback f s else (false, s)

/-- Slow start of CUBIC (cubic.rs:255-274). -/
def cubicSlow (now : Nat) (r : Rtt) (s : St φ) (p : Acked) : St φ :=
  (if s.ackedSl + p.size ≥ s.mds then { s with ackedSl := s.ackedSl + p.size - s.mds, cwnd := s.cwnd + s.slowInc }
   else { s with ackedSl := s.ackedSl + p.size }).hyAck p r.latest now

/-- The time from which the curve is counted, and the curve (cubic.rs:277-307). -/
def cubicStart (f : Curve φ) (now : Nat) (s : St φ) : Nat × St φ :=
  if s.hy.inCss = true then
    (s.hy.cssStart.getD 0, if f.unset s.curve = true then { s with curve := f.start s.curve s.cwnd } else s)
  else
    match s.recStart with
    | some t => (t, s)
    | none => (now, { s with recStart := some now, curve := f.start s.curve s.cwnd })

/-- The window the curve asks for (cubic.rs:311-343). -/
def cubicWant (f : Curve φ) (t minRtt : Nat) (s : St φ) (grown : φ) : Nat :=
  match f.friendly grown t s.mds with
  | some w => Nat.max s.cwnd w
  | none =>
    s.cwnd + s.mds * (Nat.min (Nat.max (f.target s.curve (t + minRtt) s.mds) s.cwnd) (s.cwnd * 3 / 2) - s.cwnd) / s.cwnd

/-- Growth in congestion avoidance (cubic.rs:311-351). -/
def cubicGrow (f : Curve φ) (t minRtt : Nat) (s : St φ) (size : Nat) : St φ :=
  let grown := f.grow s.curve size s.cwnd s.mds
  let inc := s.cwndInc + (cubicWant f t minRtt s grown - s.cwnd)
  if inc ≥ s.mds then { s with curve := grown, cwnd := s.cwnd + s.mds, cwndInc := inc - s.mds }
  else { s with curve := grown, cwndInc := inc }

/-- Congestion avoidance of CUBIC (cubic.rs:275-352). -/
def cubicAvoid (f : Curve φ) (now : Nat) (r : Rtt) (s : St φ) (p : Acked) : St φ :=
  let b := cubicStart f now s
  cubicGrow f (now - b.1) r.minRtt.estimate b.2 p.size

/-- `cubic::on_packet_acked` (cubic.rs:211-353). -/
def cubicAck (f : Curve φ) (flight now : Nat) (r : Rtt) (s : St φ) (p : Acked) : St φ :=
  if s.inRecovery p.timeSent = true then { s with prr := s.prr.onAcked p.size flight s.ssthresh s.mds }
  else if s.appLimited = true then s
  else if (cubicUndo f s).1 = true then (cubicUndo f s).2
  else if s.cwnd < s.ssthresh then cubicSlow now r s p
  else cubicAvoid f now r s p

/-- The window of CUBIC after a congestion event (cubic.rs:375-379). -/
def cubicCut (f : Curve φ) (s : St φ) : Nat := Nat.max (f.beta s.cwnd) (s.mds * minPackets)

/-- `cubic::congestion_event` (cubic.rs:355-400). -/
def cubicEvent (f : Curve φ) (s : St φ) (flight timeSent now : Nat) : St φ :=
  if s.inRecovery timeSent = true then s
  else
    ({ s with recStart := some now, cwnd := cubicCut f s, curve := f.event s.curve s.cwnd (cubicCut f s) s.mds,
              cwndInc := f.beta s.cwndInc, prr := Prr.event flight }.setThresh (cubicCut f s) s.hy.inCss).hyEvent

/-- `cubic::checkpoint` (cubic.rs:402-409). -/
def cubicCheckpoint (s : St φ) : St φ := { s with prior := ⟨s.cwnd, s.ssthresh, s.curve, s.recStart, s.lostCount⟩ }

/-! ### The controllers as recovery calls them -/

/-- `CongestionControlAlgorithm` (recovery/mod.rs), without BBR2. -/
inductive Algo where
  | reno
  | cubic
  deriving DecidableEq, Repr

/-- The operation `on_packet_sent` of an algorithm (reno.rs:57-61, cubic.rs:157-198). -/
def algoSent (a : Algo) (s : St φ) (sent flight now : Nat) : St φ :=
  match a with
  | .reno => s
  | .cubic => cubicSent s sent flight now

/-- HyStart++: the start of a round in slow start (mod.rs:210-215). -/
def St.hySent (s : St φ) (pn : Nat) : St φ :=
  if s.hy.enabled = true ∧ s.cwnd < s.ssthresh then { s with hy := s.hy.startRound pn } else s

/-- PRR is told of a sent packet (mod.rs:207). -/
def St.prrSent (s : St φ) (sent : Nat) : St φ := { s with prr := s.prr.onSent sent }

/-- `Congestion::on_packet_sent` (mod.rs:196-222). -/
def onSent (a : Algo) (s : St φ) (flight sent now pn : Nat) (inFlight : Bool) : St φ :=
  if inFlight = true then
    ((algoSent a { s with appLimited := decide (flight + sent < s.cwnd) } sent flight now).prrSent sent).hySent pn
  else s

/-- `on_packets_acked` (reno.rs:63-70, cubic.rs:200-209). -/
def onAcked (f : Curve φ) (a : Algo) (s : St φ) (flight : Nat) (l : List Acked) (r : Rtt) (now : Nat) : St φ :=
  match a with
  | .reno => l.foldl (renoAck now r) s
  | .cubic => l.foldl (cubicAck f flight now r) { s with lastAck := some now }

/-- The operations of an algorithm (reno.rs:43-53, cubic.rs:48-58). -/
def ctl (f : Curve φ) (a : Algo) : Cc (St φ) where
  onSent := onSent a
  inRecovery := St.inRecovery
  checkpoint s := match a with
    | .reno => s
    | .cubic => cubicCheckpoint s
  event s flight _ timeSent now := match a with
    | .reno => renoEvent s timeSent now
    | .cubic => cubicEvent f s flight timeSent now
  addLost s n := { s with lostCount := s.lostCount + n }
  rollback s := match a with
    | .reno => s
    | .cubic => (cubicRollback f s).2
  onAcked := onAcked f a

/-! ### Recovery with a controller -/

/-- `LegacyRecovery` with its `max_datagram_size` (recovery.rs:355-391). -/
structure Sys (φ : Type) where
  core : State (St φ)
  size : Nat

/-- `cwnd_available` (recovery.rs:885-894). -/
def available (r : State (St φ)) : Nat :=
  if r.initial.lossProbes > 0 ∨ r.handshake.lossProbes > 0 ∨ r.application.lossProbes > 0 then usizeMax
  else (r.cc.cwnd - r.flight.bytes) + r.cc.prr.sndCnt

/-- `pmtud_update_max_datagram_size` (recovery.rs:945-957). -/
def Sys.setSize (s : Sys φ) (n : Nat) : Sys φ :=
  ⟨if s.core.cc.cwnd = s.size * s.core.cc.initPkts then
     { s.core with cc := { s.core.cc with cwnd := n * s.core.cc.initPkts } }
   else s.core, n⟩

/-- The calls of the connection. -/
inductive Call where
  /-- A call concerning packets. -/
  | base (o : Op)
  /-- `update_app_limited` (recovery.rs:1031-1033). -/
  | limited (v : Bool)
  /-- `pmtud_update_max_datagram_size` (recovery.rs:945-957). -/
  | pmtu (n : Nat)
  /-- `update_max_datagram_size` (recovery.rs:959-963), with what the peer accepts. -/
  | peerMax (n : Nat)
  deriving DecidableEq, Repr

/-- One call. -/
def Sys.step (en : Env (St φ)) (s : Sys φ) : Call → Sys φ × Out
  | .base o => (⟨(Rec.step en s.core o).1, s.size⟩, (Rec.step en s.core o).2)
  | .limited v => (⟨{ s.core with cc := { s.core.cc with appLimited := v } }, s.size⟩, Out.none)
  | .pmtu n => (s.setSize n, Out.none)
  | .peerMax n => (s.setSize (Nat.min s.size n), Out.none)

/-- A history of calls. -/
def Sys.run (en : Env (St φ)) (s : Sys φ) (l : List Call) : Sys φ := l.foldl (fun s c => (s.step en c).1) s

/-- A recovery as configured (recovery.rs:394-433). -/
def Sys.new (f : Curve φ) (size initPkts : Nat) (hystart idleFix : Bool) (t0 initialRtt maxAckDelay : Nat) : Sys φ :=
  ⟨State.new t0 initialRtt maxAckDelay (St.new f size initPkts hystart idleFix), size⟩

/-- The constants with an algorithm. -/
def env (f : Curve φ) (a : Algo) (scale : Bool → Nat → Nat) (quarter half : Nat → Nat) : Env (St φ) :=
  ⟨ctl f a, scale, quarter, half⟩

end Verif.Cong
