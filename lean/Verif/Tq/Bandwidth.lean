import Verif.Bbr.Filter

/-!
Model of the bandwidth estimate of a connection and of the gauge that all connections share
(`/repo/tokio-quiche/src/quic/io/utilization_estimator.rs`; lines below are of that file).

* Times are `Nat` (nanoseconds). A panic (a counter that went back, a missing estimate) is `none`.
* The share of lost bytes is not modelled (it is a float, and the order of estimates is that of
  their bandwidths, 141-159).
* `u64` arithmetic of the gauge wraps, as that of an atomic integer does.
* The filter (263-375) is the same code as that of BBR, modelled in `Bbr/Filter.lean`.
-/

namespace Verif.Tq.Bw
open Verif.Bbr

/-- `EST_WIN` (37). -/
abbrev win : Nat := 10
/-- Numbers of a `u64`. -/
abbrev u64 : Nat := 2 ^ 64
/-- The window of the filter, 120 s (180). -/
abbrev filterWin : Nat := 120 * 10 ^ 9

/-- `Round` (161-166). -/
structure Round where
  sent : Nat
  acked : Nat
  start : Nat
  deriving DecidableEq, Repr

/-- `MaxUtilizedBandwidthEstimator` (168-172). -/
structure Est where
  rounds : List Round := []
  filter : Filter Nat := .new filterWin
  prev : Nat := 0

/-- `bandwidth_from_bytes_and_time_delta` (245-261). -/
def bw (bytes nanos : Nat) : Nat :=
  if bytes = 0 then 0
  else
    let nanos := if nanos = 0 then 1 else nanos
    if 8 * bytes * 10 ^ 9 < nanos then 1 else (8 * bytes * 10 ^ 9 / nanos) % u64

/-- The order of estimates (155-159). -/
abbrev gt (a b : Nat) : Bool := decide (a > b)

/-- The new estimate, if any bytes were acknowledged (204-225). -/
def sample (rs : List Round) (time : Nat) : Option Nat :=
  let acked := (rs.map (·.acked)).sum
  let sent := (rs.map (·.sent)).sum
  let delta := time - (rs.head?.map (·.start)).getD 0
  if acked > 0 then some (min (bw acked delta) (bw sent delta)) else none

/-- The rounds after `new_round` (189-198). -/
def Est.next (e : Est) (time acked : Nat) : List Round :=
  (if e.rounds.length = win then e.rounds.tail else e.rounds) ++ [{ sent := e.prev, acked := acked, start := time }]

/-- `new_round` (185-232). -/
def Est.newRound (e : Est) (time sent acked : Nat) : Option Est :=
  let rs := e.next time acked
  match sample rs time with
  | none => some { e with rounds := rs, prev := sent }
  | some v =>
    if rs.length < win / 2 then some { rounds := rs, prev := sent, filter := e.filter.reset ⟨v, time⟩ }
    else (e.filter.update gt ⟨v, time⟩).map fun f => { rounds := rs, prev := sent, filter := f }

/-- `get` (234-241). -/
def Est.get (e : Est) : Nat := if e.rounds.length < win / 2 then 0 else e.filter.best.getD 0

/-- `BandwidthReporter` (41-62). -/
structure Rep where
  lastUpdate : Nat
  period : Nat := 50000000
  lastBw : Nat := 0
  lastSent : Nat := 0
  lastAcked : Nat := 0
  maxBw : Nat := 0
  est : Est := {}

/-- What `update` is given: the time, the counters of the connection and the RTT of its active path. -/
structure In where
  now : Nat
  sent : Nat
  acked : Nat
  rtt : Option Nat := none

/-- The rest of `update`, with the estimator after the round (103-126). -/
def Rep.finish (r : Rep) (x : In) (e : Est) : Rep :=
  { lastUpdate := x.now, period := x.rtt.getD r.period, lastSent := x.sent, lastAcked := x.acked, est := e,
    lastBw := e.get, maxBw := if r.lastBw = e.get then r.maxBw else max r.maxBw e.get }

/-- `update` (86-126), but for the gauge. -/
def Rep.update (r : Rep) (x : In) : Option Rep :=
  if x.now - r.lastUpdate < r.period then some r
  else if x.sent < r.lastSent ∨ x.acked < r.lastAcked then none
  else (r.est.newRound r.lastUpdate (x.sent - r.lastSent) (x.acked - r.lastAcked)).map (r.finish x)

/-- The live reporters and the gauge they share. -/
structure World where
  live : List Rep := []
  gauge : Nat := 0

/-- `inc_by` and `dec_by` of the gauge. -/
def inc (g x : Nat) : Nat := (g + x) % u64
def dec (g x : Nat) : Nat := (g + (u64 - x % u64)) % u64

inductive Op where
  /-- a connection is established (65-82) -/
  | new (now : Nat)
  | update (i : Nat) (x : In)
  /-- a connection is gone (129-133) -/
  | drop (i : Nat)

def World.step (w : World) : Op → Option World
  | .new now => some { w with live := { lastUpdate := now } :: w.live }
  | .update i x => match w.live[i]? with
    | none => some w
    | some r => (r.update x).map fun r' =>
      { live := w.live.set i r', gauge := if r.lastBw = r'.lastBw then w.gauge else inc (dec w.gauge r.lastBw) r'.lastBw }
  | .drop i => match w.live[i]? with
    | none => some w
    | some r => some { live := w.live.eraseIdx i, gauge := dec w.gauge r.lastBw }

def World.run (w : World) : List Op → Option World
  | [] => some w
  | o :: l => (w.step o).bind fun w => w.run l

end Verif.Tq.Bw
