/-!
Model of the delivery rate estimator of `/repo/quiche/src/recovery/congestion/delivery_rate.rs`,
as it is driven by `/repo/quiche/src/recovery/congestion/mod.rs:195-245`. Times are nanoseconds.
The quotient is exact and rounded down; the code computes it with `f64`. Fields that are only kept
for other purposes (`rtt`, `tx_in_flight`, `lost`, `interval`) are left out.
-/

namespace Verif.Rate

/-- What is kept of a packet (`Sent`, `Acked`; recovery.rs:1136-1152). -/
structure Pkt where
  num : Nat
  size : Nat
  sent : Nat
  firstSent : Nat
  delTime : Nat
  del : Nat
  appLim : Bool
  /-- not in the code: how many packets were sent before, and how long the history was -/
  id : Nat
  k : Nat
  deriving DecidableEq, Repr

/-- `RateSample` (delivery_rate.rs:202-221). -/
structure Sample where
  bw : Nat := 0
  appLim : Bool := false
  priorDel : Nat := 0
  priorTime : Option Nat := none
  sendElapsed : Nat := 0
  ackElapsed : Nat := 0
  deriving DecidableEq, Repr

/-- `Rate` (delivery_rate.rs:41-61). -/
structure Rate where
  delivered : Nat := 0
  delTime : Nat := 0
  firstSent : Nat := 0
  endApp : Nat := 0
  lastSent : Nat := 0
  largestAcked : Nat := 0
  s : Sample := {}
  deriving DecidableEq, Repr

/-- `app_limited` (delivery_rate.rs:181-183). -/
def Rate.appLimited (r : Rate) : Bool := r.endApp != 0

/-- `update_app_limited` (delivery_rate.rs:176-179). -/
def Rate.setLimited (r : Rate) (v : Bool) : Rate := { r with endApp := if v then max r.lastSent 1 else 0 }

/-- The start of `on_packet_sent` (delivery_rate.rs:86-90). -/
def Rate.restart (r : Rate) (inflight now : Nat) : Rate :=
  if inflight = 0 then { r with firstSent := now, delTime := now } else r

/-- `update_rate_sample` (delivery_rate.rs:103-129). -/
def Rate.update (r : Rate) (p : Pkt) (now : Nat) : Rate :=
  let r := { r with delivered := r.delivered + p.size, delTime := now }
  let r :=
    if r.s.priorTime = none ∨ p.del ≥ r.s.priorDel then
      { r with
        s := { r.s with priorDel := p.del, priorTime := some p.delTime, appLim := p.appLim, sendElapsed := p.sent - p.firstSent, ackElapsed := r.delTime - p.delTime }
        firstSent := p.sent }
    else r
  { r with largestAcked := max r.largestAcked p.num }

/-- `generate_rate_sample` (delivery_rate.rs:131-170). `none` is the panic of
`self.delivered - self.rate_sample.prior_delivered`. -/
def Rate.generate (r : Rate) (minRtt : Nat) : Option Rate :=
  let r := if r.appLimited && decide (r.largestAcked > r.endApp) then r.setLimited false else r
  if r.s.priorTime.isSome then
    let interval := max r.s.sendElapsed r.s.ackElapsed
    if r.delivered < r.s.priorDel then none
    else if interval < minRtt then some r
    else if interval ≠ 0 then
      let bw := (r.delivered - r.s.priorDel) * 1000000000 / interval
      if !r.s.appLim || decide (bw > r.s.bw) then some { r with s := { r.s with bw := bw } } else some r
    else some r
  else some r

/-- What happened: acknowledgements, and packets sent with nothing in flight. -/
inductive Ev where
  | acked (time bytes : Nat)
  | restart (time : Nat)
  deriving DecidableEq, Repr

def Ev.time : Ev → Nat
  | .acked t _ => t
  | .restart t => t

def Ev.bytes : Ev → Nat
  | .acked _ b => b
  | .restart _ => 0

/-- Bytes acknowledged. -/
def bytes (l : List Ev) : Nat := (l.map Ev.bytes).sum

/-- When the last of some events was; the estimator is made at time zero. -/
def lastTime (l : List Ev) : Nat := (l.getLast?.map Ev.time).getD 0

structure World where
  r : Rate := {}
  now : Nat := 0
  /-- packets in flight or not yet acknowledged, in the order in which they were sent -/
  out : List Pkt := []
  /-- not in the code -/
  log : List Ev := []
  sent : Nat := 0
  /-- the packet last sampled, and when -/
  sampled : Option (Pkt × Nat) := none
  /-- how many packets had been sent when the sender was last said to be limited -/
  mark : Nat := 0
  deriving DecidableEq, Repr

inductive Op where
  /-- time passes -/
  | tick (d : Nat)
  /-- a packet is sent while `inflight` bytes are in flight -/
  | send (num size inflight : Nat)
  /-- packets (by the order in which they were sent) are lost -/
  | lose (sel : Nat → Bool)
  /-- packets are acknowledged -/
  | ack (sel : Nat → Bool) (minRtt : Nat)
  /-- the application has too little to send (lib.rs:5462-5464, 8324-8326) -/
  | limited

namespace World

/-- `on_packet_sent` (congestion/mod.rs:217-221; delivery_rate.rs:82-100). -/
def send (w : World) (num size inflight : Nat) : World :=
  let r := w.r.restart inflight w.now
  let log := if inflight = 0 then w.log ++ [.restart w.now] else w.log
  let p : Pkt := { num, size, sent := w.now, firstSent := r.firstSent, delTime := r.delTime, del := r.delivered, appLim := r.appLimited, id := w.sent, k := log.length }
  { w with r := { r with lastSent := num }, log, sent := w.sent + 1, out := w.out ++ [p] }

/-- An acknowledged packet. -/
abbrev update (w : World) (p : Pkt) : World :=
  { w with
    r := w.r.update p w.now
    log := w.log ++ [.acked w.now p.size]
    sampled := if w.r.s.priorTime = none ∨ p.del ≥ w.r.s.priorDel then some (p, w.now) else w.sampled }

/-- The loop over the acknowledged packets (congestion/mod.rs:229-231). -/
def updates (w : World) : List Pkt → World
  | [] => w
  | p :: l => updates (w.update p) l

/-- The packets an acknowledgement is of. -/
def batch (w : World) (sel : Nat → Bool) : List Pkt := w.out.filter fun p => sel p.id

/-- One event. `on_ack_received` returns early when nothing is newly acknowledged
(recovery.rs:704-706); otherwise congestion/mod.rs:224-245. -/
def step (w : World) : Op → Option World
  | .tick d => some { w with now := w.now + d }
  | .send n s i => some (w.send n s i)
  | .lose sel => some { w with out := w.out.filter fun p => !sel p.id }
  | .ack sel m =>
    if w.batch sel = [] then some w
    else
      let v := w.updates (w.batch sel)
      (v.r.generate m).map fun r => { v with r := r, out := w.out.filter fun p => !sel p.id }
  | .limited => some { w with r := w.r.setLimited true, mark := w.sent }

def run (w : World) : List Op → Option World
  | [] => some w
  | op :: l => (w.step op).bind fun w => w.run l

end World

end Verif.Rate
