import Verif.Ranges.Model
import Verif.Packet.Num

/-!
Model of the choice of packet numbers, the skipped packet numbers that detect
optimistic acknowledgements (`PktNumManager`, `/repo/quiche/src/packet.rs`) and the
checks on received ACK frames (`/repo/quiche/src/lib.rs`, `recovery/congestion/recovery.rs`).
-/

namespace Verif.Packet
open Verif

/-- `make_nonce` (crypto/mod.rs:495-506), for an IV of 12 bytes (`copy_from_slice`
panics on others). -/
def makeNonce (iv : Bytes) (counter : Nat) : Bytes :=
  iv.take 4 ++ List.zipWith (· ^^^ ·) (iv.drop 4) (beBytes 8 counter)

/-- `MIN_SKIP_COUNTER_VALUE` (packet.rs:60-61); the default initial window is 10 packets
(lib.rs:496). -/
abbrev minSkipCounter : Nat := 20

/-- The fields concerned: `Connection::next_pkt_num`, `PktNumManager`,
`PktNumSpace::largest_tx_pkt_num` by epoch, `largest_acked_packet` by path and epoch.
`sent` is a record of the packets sent (epoch and packet number, latest first). -/
structure PnState where
  next : Nat := 0
  skip : Option Nat := none
  counter : Option Nat := none
  largestTx : Nat → Option Nat := fun _ => none
  acked : Nat → Nat → Option Nat := fun _ _ => none
  sent : List (Nat × Nat) := []

/-- `should_skip_pn` (packet.rs:1059-1073). -/
def PnState.shouldSkip (s : PnState) (completed : Bool) : Bool :=
  s.counter == some 0 && s.skip.isNone && completed

/-- `set_skip_pn` (packet.rs:1079-1090); `none` if an assertion fails. -/
def PnState.setSkip (s : PnState) (v : Option Nat) : Option PnState :=
  if v.isSome && (s.skip.isSome || s.counter != some 0) then none
  else some { s with skip := v, counter := none }

/-- The choice of the packet number in `send_single` (lib.rs:4389-4393). -/
def PnState.pick (s : PnState) (completed : Bool) : Option (Nat × PnState) :=
  if s.shouldSkip completed then
    match s.setSkip (some s.next) with
    | none => none
    | some s => some (s.next + 1, { s with next := s.next + 1 })
  else some (s.next, s)

/-- `arm_skip_counter` (packet.rs:1093-1121); `none` stands for the division by zero.
`rnd` is the random number below `skip_range`. -/
def armCounter (cwnd mds : Nat) (rnd : Nat → Nat) : Option Nat :=
  if mds = 0 then none
  else
    let perCwnd := cwnd / mds
    let lower := perCwnd / 2
    let upper := perCwnd * 2
    let skipRange := upper - lower + 1
    some (minSkipCounter + lower + rnd skipRange)

/-- `PktNumManager::on_packet_sent` (packet.rs:1035-1057). -/
def PnState.onSent (s : PnState) (cwnd mds : Nat) (completed : Bool) (rnd : Nat → Nat) : Option PnState :=
  match s.counter with
  | some c => some { s with counter := some (c - 1) }
  | none =>
    if s.skip.isNone && completed then
      match armCounter cwnd mds rnd with
      | none => none
      | some c => some { s with counter := some c }
    else some s

/-- `o.max(Some(n))` for an option `o`. -/
def maxOpt (o : Option Nat) (n : Nat) : Nat :=
  match o with
  | none => n
  | some l => max l n

/-- `send_single`, as far as packet numbers go (lib.rs:4380-4393, 5466-5475,
5527-5542; packet.rs:908-912). `ok` tells whether a packet is made in the end; all
failures come before the number is used up. -/
def PnState.send (s : PnState) (epoch cwnd mds : Nat) (completed : Bool) (rnd : Nat → Nat) (ok : Bool) : Option PnState :=
  match s.pick completed with
  | none => none
  | some (pn, s) =>
    if ok then
      let s := { s with
        next := s.next + 1
        sent := (epoch, pn) :: s.sent
        largestTx := fun e => if e = epoch then some (maxOpt (s.largestTx e) pn) else s.largestTx e }
      s.onSent cwnd mds completed rnd
    else some s

/-- Errors of `process_frame` on an ACK frame. -/
inductive AckErr where
  | invalidAckRange
  | optimisticAck
  | panic
  deriving DecidableEq, Repr

/-- Whether half-open ranges contain a number. -/
def covers (ranges : List (Nat × Nat)) (n : Nat) : Bool := ranges.any fun r => r.1 ≤ n && n < r.2

/-- `ranges.last()` (ranges.rs:117-126): the largest number in the ranges. -/
def lastOf (ranges : List (Nat × Nat)) : Option Nat := ranges.getLast?.map fun r => r.2 - 1

/-- An acknowledgement beyond the largest packet number sent in the epoch
(lib.rs:8312-8316). -/
def PnState.beyond (s : PnState) (epoch largest : Nat) : Bool := (s.largestTx epoch).any (· < largest)

/-- An acknowledgement of the skipped packet number (recovery.rs:141-148). -/
def PnState.coversSkip (s : PnState) (ranges : List (Nat × Nat)) : Bool := s.skip.any (covers ranges)

/-- `largest_acked_packet` after the newly acknowledged packets `found`
(recovery.rs:703-715). -/
def PnState.record (s : PnState) (epoch path : Nat) (found : List Nat) : PnState :=
  match found.getLast? with
  | none => s
  | some l =>
    { s with acked := fun p e => if p = path ∧ e = epoch then some (max ((s.acked p e).getD 0) l) else s.acked p e }

/-- The skipped number is done with once a larger one is acknowledged
(lib.rs:8343-8355). -/
def PnState.validate (s : PnState) (epoch path : Nat) : Except AckErr PnState :=
  match s.acked path epoch, s.skip with
  | some a, some k =>
    if a > k then
      match s.setSkip none with
      | none => .error .panic
      | some s => .ok s
    else .ok s
  | _, _ => .ok s

/-- Treatment of an ACK frame for one path (lib.rs:8311-8355;
recovery/congestion/recovery.rs:120-198, 676-715). `sentOn` lists packet numbers the
path still has on record; of these, the packets sent in this epoch that the ranges cover
are newly acknowledged. The rest of loss recovery is left out, so any record is
considered. -/
def PnState.ackPath (s : PnState) (epoch : Nat) (ranges : List (Nat × Nat)) (path : Nat) (sentOn : List Nat) :
    Except AckErr PnState :=
  match lastOf ranges with
  | none => .error .panic
  | some largest =>
    if s.beyond epoch largest then .error .invalidAckRange
    else if s.coversSkip ranges then .error .optimisticAck
    else
      let found := sentOn.filter fun pn => covers ranges pn && s.sent.contains (epoch, pn)
      (s.record epoch path found).validate epoch path

/-- The loop over the paths (lib.rs:8311). Paths come with their record of sent
packets. -/
def PnState.ack (s : PnState) (epoch : Nat) (ranges : List (Nat × Nat)) : List (Nat × List Nat) → Except AckErr PnState
  | [] => .ok s
  | (p, record) :: l =>
    match s.ackPath epoch ranges p record with
    | .error e => .error e
    | .ok s => s.ack epoch ranges l

/-- Steps of a connection. -/
inductive PnOp where
  | send (epoch cwnd mds : Nat) (completed : Bool) (rnd : Nat → Nat) (ok : Bool)
  | ack (epoch : Nat) (ranges : List (Nat × Nat)) (paths : List (Nat × List Nat))

/-- One step; after an error the connection is closed and the state no longer
matters. -/
def PnState.step (s : PnState) : PnOp → Option PnState
  | .send e c m k r ok => s.send e c m k r ok
  | .ack e r p => match s.ack e r p with
    | .ok s => some s
    | .error .panic => none
    | .error _ => some s

/-- A run. -/
def PnState.run (s : PnState) : List PnOp → Option PnState
  | [] => some s
  | op :: l => match s.step op with
    | none => none
    | some s => s.run l

end Verif.Packet
