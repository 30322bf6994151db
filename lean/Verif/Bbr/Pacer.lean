import Verif.Bbr.Bandwidth

/-!
Model of the pacer used with BBR (`/repo/quiche/src/recovery/gcongestion/pacer.rs`) and of
`ReleaseTime` and `ReleaseDecision` (`/repo/quiche/src/recovery/mod.rs`).

* The congestion controller below the pacer is a parameter: each operation is given what
  the controller answers (`View`). What the pacer needs to know about quiescence
  (`last_quiescence_start` of `bbr2.rs`) is part of the model.
* Times are nanoseconds, `Nat`.
-/

namespace Verif.Bbr

/-- `ReleaseTime` (mod.rs:711-714). -/
inductive Release where
  | immediate
  | at_ (t : Nat)
  deriving DecidableEq, Repr

/-- `ReleaseTime::inc` (mod.rs:725-730). -/
def Release.inc (r : Release) (delay : Nat) : Release :=
  match r with
  | .immediate => .immediate
  | .at_ t => .at_ (t + delay)

/-- `ReleaseTime::set_max` (mod.rs:733-738). -/
def Release.setMax (r : Release) (other : Nat) : Release :=
  match r with
  | .immediate => .at_ other
  | .at_ t => .at_ (max other t)

/-- `ReleaseDecision` (mod.rs:718-721). -/
structure Decision where
  time : Release
  burst : Bool
  deriving DecidableEq, Repr

/-- `ReleaseDecision::time` (mod.rs:747-752). -/
def Decision.at? (d : Decision) (now : Nat) : Option Nat :=
  match d.time with
  | .immediate => none
  | .at_ t => if t > now then some t else none

/-- `EQUAL_THRESHOLD` (mod.rs:742), in nanoseconds. -/
abbrev equalThreshold : Nat := 50000

/-- `ReleaseDecision::time_eq` (mod.rs:762-771). -/
def Decision.timeEq (a b : Decision) (now : Nat) : Bool :=
  match a.at? now, b.at? now with
  | none, none => true
  | some t, none => decide (t - now ≤ equalThreshold)
  | none, some t => decide (t - now ≤ equalThreshold)
  | some t, some u => if t < u then decide (u - t ≤ equalThreshold) else decide (t - u ≤ equalThreshold)

/-- What the congestion controller answers after a packet was sent: the window in bytes and
in packets (`get_congestion_window`, `get_congestion_window_in_packets`), the bandwidth
(`bandwidth_estimate`) and the rate (`pacing_rate`). -/
structure View where
  cwnd : Nat
  packets : Nat
  bandwidth : Nat
  rate : Nat
  deriving DecidableEq, Repr

/-- `INITIAL_UNPACED_BURST` (pacer.rs:59). -/
abbrev initialBurst : Nat := 10

/-- `LUMPY_PACING_SIZE` (pacer.rs:50). -/
abbrev lumpySize : Nat := 2

/-- `LUMPY_PACING_MIN_BANDWIDTH_KBPS` (pacer.rs:54-55), in bits per second. -/
abbrev lumpyMinBandwidth : Nat := 1200000

/-- `Pacer` (pacer.rs:61-80), with `last_quiescence_start` of the controller. `bad` is set
when `lumpy_tokens -= 1` would be below zero. -/
structure Pacer where
  enabled : Bool
  maxRate : Option Nat
  burst : Nat
  next : Release
  lumpy : Nat
  limited : Bool
  quiet : Option Nat
  bad : Bool
  deriving DecidableEq, Repr

/-- `Pacer::new` (pacer.rs:86-99). -/
def Pacer.new (enabled : Bool) (maxRate : Option Nat) : Pacer := ⟨enabled, maxRate, initialBurst, .immediate, 0, false, none, false⟩

/-- `get_next_release_time` (pacer.rs:101-114). -/
def Pacer.decision (p : Pacer) : Decision :=
  if p.enabled = false then ⟨.immediate, true⟩ else ⟨p.next, decide (p.burst > 0) || decide (p.lumpy > 0)⟩

/-- `pacing_rate` (pacer.rs:243-251). -/
def Pacer.rate (p : Pacer) (v : View) : Nat :=
  match p.maxRate with
  | some r => if p.enabled = true then min r v.rate else v.rate
  | none => v.rate

/-- The lumpy tokens of a new lump (pacer.rs:166-187). A quarter of the window in packets is
computed with floats, exactly for less than 2^53 packets. -/
def lumps (v : View) (flight : Nat) : Nat :=
  if flight ≥ v.cwnd then 1
  else if v.bandwidth < lumpyMinBandwidth then 1
  else max 1 (min lumpySize (v.packets / 4))

/-- The burst tokens at a packet sent with `inFlight` bytes in flight (pacer.rs:142-150).
`is_in_recovery` of `BBRv2` is `last_quiescence_start.is_none()` (bbr2.rs:765-768). -/
def Pacer.refill (p : Pacer) (v : View) (inFlight : Nat) : Nat :=
  if inFlight = 0 ∧ p.quiet.isNone = false then min initialBurst v.packets else p.burst

/-- A packet that is paced (pacer.rs:159-193). -/
def Pacer.paced (p : Pacer) (v : View) (now inFlight bytes : Nat) : Pacer :=
  let k := if p.limited = false ∨ p.lumpy = 0 then lumps v (inFlight + bytes) else p.lumpy
  { p with lumpy := k - 1, bad := p.bad || decide (k = 0),
           next := (p.next.setMax now).inc (transferTime (p.rate v) bytes),
           limited := decide (inFlight + bytes < v.cwnd) }

/-- `BBRv2::on_packet_sent` as far as quiescence goes (bbr2.rs): it ends with a packet sent
when nothing is in flight (`avoid_unnecessary_probe_rtt` is always true). -/
def Pacer.leaveQuiet (p : Pacer) (inFlight : Nat) : Pacer := if inFlight = 0 then { p with quiet := none } else p

/-- `on_packet_sent` (pacer.rs:125-194). -/
def Pacer.onSent (p : Pacer) (v : View) (now inFlight bytes : Nat) (eliciting : Bool) : Pacer :=
  let p := p.leaveQuiet inFlight
  if p.enabled = false ∨ eliciting = false then p
  else
    let p := { p with burst := p.refill v inFlight }
    if p.burst > 0 then { p with burst := p.burst - 1, next := .immediate, limited := false }
    else p.paced v now inFlight bytes

/-- `on_congestion_event` (pacer.rs:198-233): `inFlight` is what the controller takes to be in flight after the event, at
which it may become quiet (bbr2.rs). The limit of the window is not part of this model. -/
def Pacer.onEvent (p : Pacer) (now inFlight : Nat) (losses : Bool) : Pacer :=
  let p := if inFlight = 0 then { p with quiet := some now } else p
  if p.enabled = false then p else if losses = true then { p with burst := 0 } else p

/-- `on_app_limited` (pacer.rs:275-278). -/
def Pacer.onAppLimited (p : Pacer) : Pacer := { p with limited := false }

end Verif.Bbr
