import Verif.Ranges.Lemmas
import Verif.Packet.Num

/-!
Model of how received packets are acknowledged: `PktNumSpace` (packet.rs:864-913), and what
`recv_single`, `send_single` and `drop_epoch_state` do to one.

Not modelled: decoding and decryption of packets, and frames other than ACK.
-/

namespace Verif.Ack
open Verif Verif.Ranges Verif.Packet

/-- `MAX_ACK_RANGES` (lib.rs:458). -/
abbrev maxAckRanges : Nat := 68

/-- `PktNumSpace` (packet.rs:864-885) without the largest number sent and the largest non-probing
number. Times are in microseconds. -/
structure Space where
  largestRx : Nat := 0
  largestTime : Nat := 0
  needAck : RangeSet := .new maxAckRanges
  seen : Window := {}
  elicited : Bool := false

/-- An ACK frame that was sent. -/
structure Frame where
  delay : Nat
  ranges : RangeSet

/-- The handling of a frame ACK of ours that was acknowledged (lib.rs:3574-3583). The outer none is
a panic. -/
def Space.ackAcked (s : Space) (f : Frame) : Option Space :=
  match f.ranges.last with
  | none => none
  | some none => some s
  | some (some largest) => some { s with needAck := s.needAck.removeUntil largest }

/-- `Option<u64>` compared with `Some(pn)` (lib.rs:3748). -/
def below (last : Option Nat) (pn : Nat) : Bool :=
  match last with
  | none => true
  | some l => decide (l < pn)

/-- The end of `recv_single` (lib.rs:3746-3760). -/
def Space.record (s : Space) (pn : Nat) (el : Bool) (now : Nat) : Option Space :=
  match s.needAck.last with
  | none => none
  | some last =>
    match s.needAck.pushItem pn with
    | none => none
    | some r =>
      some { s with
        largestTime := if below last pn then now else s.largestTime
        seen := s.seen.insert pn
        needAck := r
        elicited := s.elicited || el
        largestRx := max s.largestRx pn }

/-- Acknowledged frames, one after the other. -/
def Space.acksAcked (s : Space) : List Frame → Option Space
  | [] => some s
  | f :: l => (s.ackAcked f).bind fun s => s.acksAcked l

/-- `recv_single` for a packet that could be decrypted and whose frames could be processed
(lib.rs:3323-3326, 3524-3760): `acked` are our ACK frames in packets it acknowledges. -/
def Space.recv (s : Space) (pn : Nat) (el : Bool) (acked : List Frame) (now : Nat) : Option Space :=
  if s.seen.contains pn then some s
  else (s.acksAcked acked).bind fun s => s.record pn el now

/-- The creation of ACK frames in `send_single` (lib.rs:4528-4568). `required`: a PING is to be
sent (`should_elicit_ack`); `allowed`: the connection is not closing, or the exception for the
handshake holds, and the path is active; `cwnd`: the frame is smaller than the congestion window;
`fits`: the frame fits into the packet; `exponent` is the parameter `ack_delay_exponent`. -/
def Space.send (s : Space) (required allowed cwnd fits : Bool) (exponent now : Nat) : Option Frame × Space :=
  if 0 < s.needAck.len ∧ (s.elicited || required) ∧ allowed then
    if (s.elicited || cwnd) && fits then
      (some { delay := (now - s.largestTime) / 2 ^ exponent, ranges := s.needAck }, { s with elicited := false })
    else (none, s)
  else (none, s)

/-- An ACK frame was in a packet that was lost (lib.rs:4217-4219). -/
def Space.lost (s : Space) : Space := { s with elicited := true }

/-- `PktNumSpace::clear` (packet.rs:900-902). -/
def Space.clear (s : Space) : Space := { s with elicited := false }

/-! ### Executions -/

inductive Act where
  /-- a packet arrives; `acked`: positions in the list of our ACK frames -/
  | recv (pn : Nat) (el : Bool) (acked : List Nat)
  /-- a packet is built -/
  | send (required allowed cwnd fits : Bool)
  /-- the packet with our ACK frame at this position was lost -/
  | lost (i : Nat)
  | tick (d : Nat)
  deriving DecidableEq, Repr

/-- The packet number space, and what was seen from outside: the packets processed, with the time
and whether an acknowledgement was asked for; the ACK frames sent, with the time; those of them that
were acknowledged, and those that were declared lost. -/
structure Y where
  sp : Space := {}
  now : Nat := 0
  exponent : Nat := 3
  rx : List (Nat × Nat × Bool) := []
  sent : List (Nat × Frame) := []
  acked : List Nat := []
  lost : List Nat := []
  panicked : Bool := false

/-- The frames at these positions. -/
def Y.frames (y : Y) (is : List Nat) : List Frame := (is.filterMap (y.sent[·]?)).map (·.2)

def Y.step (y : Y) : Act → Y
  | .recv pn el is =>
    if y.sp.seen.contains pn then y
    else
      match y.sp.recv pn el (y.frames is) y.now with
      | none => { y with panicked := true }
      | some s => { y with sp := s, rx := y.rx ++ [(pn, y.now, el)], acked := y.acked ++ is }
  | .send required allowed cwnd fits =>
    match y.sp.send required allowed cwnd fits y.exponent y.now with
    | (none, s) => { y with sp := s }
    | (some f, s) => { y with sp := s, sent := y.sent ++ [(y.now, f)] }
  | .lost i =>
    match y.sent[i]? with
    | none => y
    | some _ => { y with sp := y.sp.lost, lost := y.lost ++ [i] }
  | .tick d => { y with now := y.now + d }

def Y.run (y : Y) (l : List Act) : Y := l.foldl Y.step y

/-- A new connection, whatever the clock says. -/
structure Y.Initial (y : Y) : Prop where
  sp : y.sp = {}
  rx : y.rx = []
  sent : y.sent = []
  acked : y.acked = []
  lost : y.lost = []
  panicked : y.panicked = false

end Verif.Ack
