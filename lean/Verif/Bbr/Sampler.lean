import Verif.Bbr.Bandwidth
import Verif.Bbr.Filter

/-!
Model of BBR's bandwidth sampler
(`/repo/quiche/src/recovery/gcongestion/bbr/bandwidth_sampler.rs`; lines below are of that
file).

* Times and durations are nanoseconds, `Nat`; `duration_since` and `Instant - Instant` are
  zero for earlier times, like subtraction of `Nat`.
* Byte counts are `Nat`; their additions cannot overflow in practice and are not checked.
* Every place where the code would panic (a failed `assert!`, `unwrap` of `None`, a
  subtraction of `usize` below zero) sets `bad`; what is computed after that is
  meaningless.
* `Bandwidth::from_bytes_and_time_delta` is `rate`, without the overflow above 2305843009
  bytes (see `Verif.Props.C135`).
* `num_ack_aggregation_epochs` and `limit_max_ack_height_tracker_by_send_rate` (always
  `false`) are left out.
-/

namespace Verif.Bbr

/-- `Acked` (gcongestion/mod.rs:50-53), without the time. -/
abbrev Acked := Nat

/-- `Lost` (gcongestion/mod.rs:44-48). -/
structure Lost where
  pn : Nat
  bytes : Nat
  deriving DecidableEq, Repr

/-- `SendTimeState` (137-159). -/
structure SendState where
  valid : Bool
  appLimited : Bool
  sent : Nat
  acked : Nat
  lost : Nat
  inFlight : Nat
  deriving DecidableEq, Repr

/-- `SendTimeState::default` (137). -/
def SendState.none : SendState := ⟨false, false, 0, 0, 0, 0⟩

/-- `ExtraAckedEvent` (161-171). -/
structure Extra where
  extra : Nat
  bytes : Nat
  delta : Nat
  round : Nat
  deriving DecidableEq, Repr

/-- The derived order of `ExtraAckedEvent` (161): by the fields in turn. -/
def Extra.gt (a b : Extra) : Bool :=
  if a.extra ≠ b.extra then decide (a.extra > b.extra)
  else if a.bytes ≠ b.bytes then decide (a.bytes > b.bytes)
  else if a.delta ≠ b.delta then decide (a.delta > b.delta)
  else decide (a.round > b.round)

/-- `AckPoint` (193-197). -/
structure AckPoint where
  time : Nat
  acked : Nat
  deriving DecidableEq, Repr

/-- `ConnectionStateOnSentPacket` (210-231). -/
structure Entry where
  sentTime : Nat
  size : Nat
  sentAtLastAcked : Nat
  lastAckedSentTime : Nat
  lastAckedAckTime : Nat
  state : SendState
  deriving DecidableEq, Repr

/-! ### The map of packets -/

/-- `ConnectionStateMap` (41-44). -/
abbrev PMap := List (Nat × Option Entry)

/-- The check of `ConnectionStateMap::insert` (56-58). -/
def PMap.fits (m : PMap) (pn : Nat) : Bool :=
  match m.getLast? with
  | none => true
  | some p => decide (pn > p.1)

/-- `VecDeque::binary_search_by_key` and `take` of the entry found (71-75). The map is sorted
by packet number without repetition, so the entry found is the only one there. -/
def PMap.takeAt : PMap → Nat → Option Entry × PMap
  | [], _ => (none, [])
  | (n, v) :: m, pn =>
    if n = pn then (v, (n, none) :: m)
    else ((takeAt m pn).1, (n, v) :: (takeAt m pn).2)

/-- Taken entries dropped from the front (77-79). -/
def PMap.trim : PMap → PMap
  | [] => []
  | (n, none) :: m => trim m
  | (n, some v) :: m => (n, some v) :: m

/-- `ConnectionStateMap::take` (63-82). -/
def PMap.take (m : PMap) (pn : Nat) : Option Entry × PMap :=
  match m with
  | [] => (none, [])
  | (n, v) :: rest =>
    if n = pn then (v, rest)
    else ((takeAt ((n, v) :: rest) pn).1, trim (takeAt ((n, v) :: rest) pn).2)

/-- `ConnectionStateMap::remove_obsolete` (93-101). -/
def PMap.drop : PMap → Nat → PMap
  | [], _ => []
  | (n, v) :: m, least => if n < least then drop m least else (n, v) :: m

/-! ### Ack aggregation -/

/-- `MaxAckHeightTracker` (233-253). `factor` is `ack_aggregation_bandwidth_threshold`, 1.0
or 2.0. -/
structure Tracker where
  filter : Filter Extra
  epochStart : Option Nat
  epochBytes : Nat
  sentBefore : Nat
  factor : Nat
  bad : Bool

/-- `MaxAckHeightTracker::new` (285-300). -/
def Tracker.new (win : Nat) (avoid : Bool) : Tracker :=
  ⟨.new win, none, 0, 0, if avoid = true then 2 else 1, false⟩

/-- `WindowedFilter::update` for the tracker. -/
def Tracker.feed (t : Tracker) (x : Extra) (time : Nat) : Tracker :=
  match t.filter.update Extra.gt ⟨x, time⟩ with
  | some f => { t with filter := f }
  | none => { t with bad := true }

/-- One event put back with its height computed anew (341-347, 349-357, 359-367). -/
def Tracker.again (t : Tracker) (bw : Nat) (x : Extra) : Tracker :=
  if bytesPer bw x.delta < x.bytes then t.feed { x with extra := x.bytes - bytesPer bw x.delta } x.round else t

/-- `ExtraAckedEvent::default`. -/
def Extra.zero : Extra := ⟨0, 0, 0, 0⟩

/-- The heights computed anew for a new maximum bandwidth (325-368). -/
def Tracker.renew (t : Tracker) (bw : Nat) : Tracker :=
  let b := t.filter.best.getD .zero
  let s := t.filter.second.getD .zero
  let d := t.filter.third.getD .zero
  ((({ t with filter := t.filter.clear } : Tracker).again bw b).again bw s).again bw d

/-- A new aggregation epoch (383-388, 403-407). -/
def Tracker.start (t : Tracker) (lastSent now bytes : Nat) : Tracker :=
  { t with epochBytes := bytes, epochStart := some now, sentBefore := lastSent }

/-- The part of `MaxAckHeightTracker::update` in a running epoch (394-421). -/
def Tracker.within (t : Tracker) (begun bw round lastSent now bytes : Nat) : Nat × Tracker :=
  let expected := bytesPer bw (now - begun)
  if t.epochBytes ≤ t.factor * expected then (0, t.start lastSent now bytes)
  else
    let e := t.epochBytes + bytes
    let t := { t with epochBytes := e, bad := t.bad || decide (e < expected) }
    (e - expected, t.feed ⟨e - expected, e, now - begun, 0⟩ round)

/-- `MaxAckHeightTracker::update` (316-422): the extra bytes, and the new tracker. -/
def Tracker.update (t : Tracker) (bw : Nat) (newMax : Bool) (round lastSent lastAcked now bytes : Nat) : Nat × Tracker :=
  let t := if newMax = true then t.renew bw else t
  match t.epochStart with
  | some begun =>
    if lastAcked > t.sentBefore then (0, t.start lastSent now bytes)
    else t.within begun bw round lastSent now bytes
  | none => (0, t.start lastSent now bytes)

/-! ### The sampler -/

/-- `BandwidthSampler` (104-134), with `RecentAckPoints` (201-204) as `point0`, `point1`. -/
structure Sampler where
  sent : Nat
  acked : Nat
  lost : Nat
  neutered : Nat
  lastSent : Nat
  lastAcked : Nat
  appLimited : Bool
  ackTime : Nat
  sentAtLastAcked : Nat
  lastAckedSentTime : Nat
  point0 : Option AckPoint
  point1 : Option AckPoint
  cands : List AckPoint
  map : PMap
  tracker : Tracker
  endAppLimited : Option Nat
  avoid : Bool
  fix : Bool
  ackedBefore : Nat
  bad : Bool

/-- `BandwidthSampler::new` (489-518); `now` is `Instant::now()`. -/
def Sampler.new (win : Nat) (avoid fix : Bool) (now : Nat) : Sampler :=
  { sent := 0, acked := 0, lost := 0, neutered := 0, lastSent := 0, lastAcked := 0, appLimited := true, ackTime := now,
    sentAtLastAcked := 0, lastAckedSentTime := now, point0 := none, point1 := none, cands := [], map := [],
    tracker := .new win avoid, endAppLimited := none, avoid := avoid, fix := fix, ackedBefore := 0, bad := false }

/-- A panic of the tracker is one of the sampler. -/
def Sampler.failed (s : Sampler) : Bool := s.bad || s.tracker.bad

/-- `RecentAckPoints::update` (456-467), with its assertion. -/
def Sampler.point (s : Sampler) (now : Nat) : Sampler :=
  { s with point0 := s.point1, point1 := some ⟨now, s.acked⟩,
           bad := s.bad || decide (s.acked < (s.point1.map AckPoint.acked).getD 0) }

/-- The start of a flight (546-560): no bytes are in flight. -/
def Sampler.fresh (s : Sampler) (now : Nat) : Sampler :=
  let s := { s with ackTime := now }
  let s := if s.avoid = true then
      let s := ({ s with point0 := none, point1 := none } : Sampler).point now
      { s with cands := s.point1.toList, bad := s.bad || s.point1.isNone }
    else s
  { s with sentAtLastAcked := s.sent, lastAckedSentTime := now }

/-- `ConnectionStateOnSentPacket::from` (425-453). -/
def Sampler.entry (s : Sampler) (now size inFlight : Nat) : Entry :=
  ⟨now, size, s.sentAtLastAcked, s.lastAckedSentTime, s.ackTime, ⟨true, s.appLimited, s.sent, s.acked, s.lost, inFlight⟩⟩

/-- `ConnectionStateMap::insert` (55-61). -/
def Sampler.insert (s : Sampler) (pn : Nat) (e : Entry) : Sampler :=
  { s with map := s.map ++ [(pn, some e)], bad := s.bad || !s.map.fits pn }

/-- `BandwidthSampler::on_packet_sent` (525-566). -/
def Sampler.onSent (s : Sampler) (now pn bytes inFlight : Nat) (eliciting : Bool) : Sampler :=
  let s := { s with lastSent := pn }
  if eliciting = false then s
  else
    let s := { s with sent := s.sent + bytes }
    let s := if inFlight = 0 then s.fresh now else s
    s.insert pn (s.entry now bytes (inFlight + bytes))

/-- `BandwidthSampler::on_packet_neutered` (568-572). -/
def Sampler.onNeutered (s : Sampler) (pn : Nat) : Sampler :=
  { s with map := (s.map.take pn).2, neutered := s.neutered + ((s.map.take pn).1.map Entry.size).getD 0 }

/-- `BandwidthSampler::on_packet_lost` (679-691). -/
def Sampler.onLost (s : Sampler) (p : Lost) : SendState × Sampler :=
  (match (s.map.take p.pn).1 with | some e => { e.state with valid := true } | none => .none,
   { s with map := (s.map.take p.pn).2, lost := s.lost + p.bytes })

/-- The losses of an event (583-591): the send state and number of the last one known. -/
def Sampler.losses (s : Sampler) (st : SendState) (n : Nat) : List Lost → SendState × Nat × Sampler
  | [] => (st, n, s)
  | p :: l =>
    if (s.onLost p).1.valid = true then losses (s.onLost p).2 (s.onLost p).1 p.pn l
    else losses (s.onLost p).2 st n l

/-- The search for the start of the slope (829-840). `fix` is `choose_a0_point_fix`. -/
def chooseLoop (acked : Nat) (fix : Bool) : List AckPoint → Option AckPoint × List AckPoint
  | [] => (none, [])
  | [a] => (some a, [a])
  | a :: b :: l =>
    if b.acked > acked then (if fix = true then (some a, a :: b :: l) else (some b, a :: b :: l))
    else chooseLoop acked fix (b :: l)

/-- `BandwidthSample` (173-191). -/
structure Sample where
  bandwidth : Nat
  rtt : Nat
  sendRate : Option Nat
  ackRate : Nat
  state : SendState
  deriving DecidableEq, Repr

/-- The counters changed by an acknowledged packet (732-739). -/
def Sampler.credit (s : Sampler) (now : Nat) (e : Entry) : Sampler :=
  { s with acked := s.acked + e.size, sentAtLastAcked := e.state.sent, lastAckedSentTime := e.sentTime, ackTime := now }

/-- The recent points are kept up to date (740-742). -/
def Sampler.mark (s : Sampler) (now : Nat) : Sampler := if s.avoid = true then s.point now else s

/-- A phase without enough data ends with the acknowledgement of a packet sent after it (743-754). -/
def Sampler.leave (s : Sampler) (pn : Nat) : Sampler :=
  { s with appLimited := s.appLimited && !(match s.endAppLimited with | none => true | some n => decide (pn > n)) }

/-- The state changed by an acknowledged packet (732-754). -/
def Sampler.ackedPacket (s : Sampler) (now pn : Nat) (e : Entry) : Sampler := ((s.credit now e).mark now).leave pn

/-- The send rate of a packet (758-769). -/
def Entry.sendRate (e : Entry) : Option Nat :=
  if e.sentTime > e.lastAckedSentTime then some (rate (e.state.sent - e.sentAtLastAcked) (e.sentTime - e.lastAckedSentTime)) else none

/-- The start of the slope (771-784). -/
def Sampler.slope (s : Sampler) (e : Entry) : AckPoint × Sampler :=
  if s.avoid = true then
    ((chooseLoop e.state.acked s.fix s.cands).1.getD ⟨e.lastAckedAckTime, e.state.acked⟩,
     { s with cands := (chooseLoop e.state.acked s.fix s.cands).2 })
  else (⟨e.lastAckedAckTime, e.state.acked⟩, s)

/-- The sample of a packet (786-818). -/
def mkSample (now acked : Nat) (a0 : AckPoint) (e : Entry) : Option Sample :=
  if now ≤ a0.time then none
  else
    let a := rate (acked - a0.acked) (now - a0.time)
    some ⟨match e.sendRate with | some r => min r a | none => a, now - e.sentTime, e.sendRate, a, { e.state with valid := true }⟩

/-- The subtractions of a sample (763-765, 794-797) have a result. -/
def Sampler.sampleBad (s : Sampler) (now : Nat) (a0 : AckPoint) (e : Entry) : Bool :=
  (decide (e.sentTime > e.lastAckedSentTime) && decide (e.state.sent < e.sentAtLastAcked))
    || (decide (a0.time < now) && decide (s.acked < a0.acked))

/-- `BandwidthSampler::on_packet_acknowledged` (728-819). -/
def Sampler.onAcked (s : Sampler) (now pn : Nat) : Option Sample × Sampler :=
  let r := s.map.take pn
  let s := { s with lastAcked := pn, map := r.2 }
  match r.1 with
  | none => (none, s)
  | some e =>
    let s := s.ackedPacket now pn e
    let a := s.slope e
    (mkSample now a.2.acked a.1 e, { a.2 with bad := a.2.bad || a.2.sampleBad now a.1 e })

/-- `CongestionEventSample` (255-282). -/
structure EventSample where
  maxBw : Option Nat
  appLimited : Bool
  rtt : Option Nat
  maxInflight : Nat
  state : SendState
  extra : Nat
  sendRate : Option Nat
  ackRate : Option Nat

/-- `CongestionEventSample::default`. -/
def EventSample.none : EventSample := ⟨.none, false, .none, 0, .none, 0, .none, .none⟩

/-- `Ord` of `Option<Bandwidth>`: `None` is the smallest. -/
def optMax (a b : Option Nat) : Option Nat :=
  match a, b with
  | none, b => b
  | a, none => a
  | some a, some b => some (Nat.max a b)

/-- `a > b` of `Option<Bandwidth>`. -/
def optGt (a b : Option Nat) : Bool :=
  match a, b with
  | none, _ => false
  | some _, none => true
  | some a, some b => decide (a > b)

/-- The running results of the acknowledged packets (602-604, 611-612). -/
structure AckRun where
  ev : EventSample
  state : SendState
  num : Nat

/-- One sample taken into account (611-637). -/
def AckRun.add (r : AckRun) (acked : Nat) (x : Sample) (pn : Nat) : AckRun :=
  ⟨{ r.ev with
      rtt := some (min x.rtt (r.ev.rtt.getD x.rtt))
      maxBw := if optGt (some x.bandwidth) r.ev.maxBw = true then some x.bandwidth else r.ev.maxBw
      appLimited := if optGt (some x.bandwidth) r.ev.maxBw = true then x.state.appLimited else r.ev.appLimited
      sendRate := optMax r.ev.sendRate x.sendRate
      ackRate := optMax r.ev.ackRate (some x.ackRate)
      maxInflight := Nat.max r.ev.maxInflight (acked - x.state.acked) }, x.state, pn⟩

/-- The acknowledged packets of an event (604-638). -/
def Sampler.acks (s : Sampler) (now : Nat) (r : AckRun) : List Acked → AckRun × Sampler
  | [] => (r, s)
  | pn :: l =>
    let a := s.onAcked now pn
    match a.1 with
    | none => acks a.2 now r l
    | some x => acks { a.2 with bad := a.2.bad || decide (a.2.acked < x.state.acked) } now (r.add a.2.acked x pn) l

/-- The send state reported by an event (640-655). -/
def pickState (lost acked : SendState) (lostNum ackedNum : Nat) : SendState :=
  if lost.valid = false then acked
  else if acked.valid = false then lost
  else if ackedNum > lostNum then acked else lost

/-- `RecentAckPoints::less_recent_point` (477-485). -/
def Sampler.lessRecent (s : Sampler) : Option AckPoint :=
  if s.fix = true then (s.point0.filter fun p => decide (p.acked > 0)).or s.point1 else s.point0.or s.point1

/-- `BandwidthSampler::on_ack_event_end` (693-726). -/
def Sampler.ackEnd (s : Sampler) (bw : Nat) (newMax : Bool) (round : Nat) : Nat × Sampler :=
  let s := { s with bad := s.bad || decide (s.acked < s.ackedBefore) }
  if s.acked - s.ackedBefore = 0 then (0, s)
  else
    let u := s.tracker.update bw newMax round s.lastSent s.lastAcked s.ackTime (s.acked - s.ackedBefore)
    let s := { s with ackedBefore := s.acked, tracker := u.2 }
    if s.avoid = true ∧ u.1 = 0 then
      (u.1, { s with cands := s.cands ++ s.lessRecent.toList, bad := s.bad || s.lessRecent.isNone })
    else (u.1, s)

/-- The bandwidth used for ack aggregation (657-671). `maxBw` is `Some` in all calls. -/
def aggBw (sample : Option Nat) (maxBw upper : Nat) : Nat := min ((optMax sample (some maxBw)).getD upper) upper

/-- `BandwidthSampler::on_congestion_event` (574-677). -/
def Sampler.onEvent (s : Sampler) (now : Nat) (acked : List Acked) (lost : List Lost) (maxBw upper round : Nat) :
    EventSample × Sampler :=
  let l := s.losses .none 0 lost
  if acked = [] then ({ EventSample.none with state := l.1 }, l.2.2)
  else
    let a := l.2.2.acks now ⟨.none, .none, 0⟩ acked
    let e := a.2.ackEnd (aggBw a.1.ev.maxBw maxBw upper) (optGt a.1.ev.maxBw (some maxBw)) round
    ({ a.1.ev with state := pickState l.1 a.1.state l.2.1 a.1.num, extra := e.1 }, e.2)

/-- `max_ack_height` (858-863). -/
def Sampler.maxAckHeight (s : Sampler) : Option Nat := s.tracker.filter.best.map Extra.extra

/-- `on_app_limited` (865-868). -/
def Sampler.onAppLimited (s : Sampler) : Sampler := { s with appLimited := true, endAppLimited := some s.lastSent }

/-- `remove_obsolete_packets` (870-880). -/
def Sampler.removeObsolete (s : Sampler) (least : Nat) : Sampler := { s with map := s.map.drop least }

end Verif.Bbr
