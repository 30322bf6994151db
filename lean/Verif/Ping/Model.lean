/-!
Model of what makes a packet ask for an acknowledgement: `send_ack_eliciting`,
`send_ack_eliciting_on_path`, and the parts of `write_pkt_type` and `send_single` of
`/repo/quiche/src/lib.rs` about it, with `should_elicit_ack`, `ping_sent`, `on_packet_sent` and
`cwnd_available` of `/repo/quiche/src/recovery/congestion/recovery.rs` (the same in
`gcongestion/recovery.rs`). Frames are kinds and lengths. What else there is to send, the
window and the room are given with each call.
-/

namespace Verif.Ping

/-- `packet::Epoch`. -/
inductive Epoch where
  | initial
  | handshake
  | application
  deriving DecidableEq, Repr

/-- `MAX_OUTSTANDING_NON_ACK_ELICITING` (recovery/mod.rs:97). -/
abbrev maxRun : Nat := 24
/-- `MAX_PTO_PROBES_COUNT` (recovery/mod.rs:89). -/
abbrev maxProbes : Nat := 2
/-- `PAYLOAD_MIN_LEN` (lib.rs:448). -/
abbrev payloadMin : Nat := 4
/-- `usize::MAX`. -/
abbrev usizeMax : Nat := 2 ^ 64 - 1

/-- What a packet may carry: an ACK, a CONNECTION_CLOSE, the PING of a probe of the path MTU, a
PING, or some other frame. -/
inductive Kind where
  | ack
  | close
  | mtuProbe
  | ping
  | other
  deriving DecidableEq, Repr

/-- A path: `needs_ack_eliciting` (path.rs:225), `loss_probes` of each epoch,
`outstanding_non_ack_eliciting`, and whether it is active. -/
structure P where
  needs : Bool := false
  probes : Epoch → Nat := fun _ => 0
  run : Nat := 0
  active : Bool := false

/-- One call of `send_single`: the epoch; whether there is another reason to send in it
(lib.rs:8187-8246); whether the handshake is complete; the room for the payload and the bytes
before it; the window left; the length of the ACK if there are numbers to acknowledge, and
whether the peer waits for it; whether the connection is closing, and the exception for the
ACK then; whether a probe of the path MTU is due and fits; the lengths of the other frames
that may go on this path, and that of CONNECTION_CLOSE. While closing, no other frame is
modelled than this and the ACK. -/
structure In where
  epoch : Epoch := .application
  ready : Bool := false
  established : Bool := true
  left : Nat
  overhead : Nat
  cwnd : Nat
  ack : Option Nat := none
  ackElicited : Bool := false
  closing : Bool := false
  closeAck : Bool := false
  mtu : Bool := false
  frames : List Nat := []
  close : Nat := 0
  deriving DecidableEq, Repr

namespace P

/-- `should_elicit_ack` (recovery.rs:577-581). -/
def required (p : P) (e : Epoch) : Bool := decide (p.probes e > 0) || decide (p.run ≥ maxRun)

/-- Whether any epoch has probes to send. -/
def probing (p : P) : Bool := decide (p.probes .initial > 0 ∨ p.probes .handshake > 0 ∨ p.probes .application > 0)

/-- `cwnd_available` (recovery.rs:884-893) less the overhead (lib.rs:4517-4518). -/
def window (p : P) (i : In) : Nat := (if p.probing then usizeMax else i.cwnd) - i.overhead

/-- The ACK frame, if it goes in (lib.rs:4528-4569). -/
def ackLen (p : P) (i : In) : Option Nat :=
  match i.ack with
  | none => none
  | some n =>
    if (i.ackElicited || p.required i.epoch) && (!i.closing || i.closeAck) && p.active && (i.ackElicited || decide (n < p.window i)) &&
      decide (n ≤ i.left) then some n else none

/-- What is left after the ACK, within the window (lib.rs:4571-4576). -/
def room (p : P) (i : In) : Nat :=
  match p.ackLen i with
  | none => min i.left (p.window i)
  | some n => min (i.left - n) (p.window i - n)

/-- `push_frame_to_pkt` (lib.rs:1886-1900) for one frame after the other: how many went in and
what is left. -/
def push (left : Nat) : List Nat → Nat × Nat
  | [] => (0, left)
  | n :: l => if n ≤ left then ((push (left - n) l).1 + 1, (push (left - n) l).2) else push left l

/-- Whether the probe of the path MTU goes in (path.rs:380-394); it fills the packet
(lib.rs:4608-4648). -/
def probeNow (p : P) (i : In) : Bool := i.mtu && decide (i.epoch = .application) && !i.closing && (p.ackLen i).isNone

/-- The frames before the PING. -/
def before (p : P) (i : In) : List Kind × Nat :=
  let a := match p.ackLen i with
    | none => []
    | some _ => [Kind.ack]
  if p.probeNow i then (a ++ [.mtuProbe], 0)
  else if i.closing then
    if i.close > 0 ∧ i.close ≤ p.room i then (a ++ [.close], p.room i - i.close) else (a, p.room i)
  else (a ++ List.replicate (push (p.room i) i.frames).1 .other, (push (p.room i) i.frames).2)

/-- The variable `ack_eliciting`. -/
def elicits (l : List Kind) : Bool := l.any fun k => decide (k = .mtuProbe ∨ k = .ping ∨ k = .other)

/-- All frames (lib.rs:5296-5307). -/
def frames (p : P) (i : In) : List Kind :=
  if (p.required i.epoch || p.needs) && !elicits (p.before i).1 && decide ((p.before i).2 ≥ 1) && !i.closing then (p.before i).1 ++ [.ping]
  else (p.before i).1

/-- The path after a packet (lib.rs:5309-5312; `ping_sent`, recovery.rs:613-616;
`on_packet_sent`, recovery.rs:626-630). -/
def after (p : P) (i : In) (l : List Kind) : P :=
  { p with
    needs := p.needs && !(elicits l && !p.probeNow i)
    probes := fun e => if e = i.epoch && (elicits l && !p.probeNow i) then p.probes e - 1 else p.probes e
    run := if elicits l then 0 else p.run + 1 }

/-- Whether there is a reason to send (`write_pkt_type`, lib.rs:8187-8260). -/
def reason (p : P) (i : In) : Bool :=
  i.ready || decide (p.probes i.epoch > 0) || (decide (i.epoch = .application) && i.established && p.needs)

/-- `send_single` (lib.rs:4103-5520): no packet is the error `Done`. -/
def call (p : P) (i : In) : Option (List Kind) × P :=
  if p.reason i = false then (none, p)
  else if i.left < payloadMin then (none, p)
  else if (p.frames i).isEmpty then (none, p)
  else (some (p.frames i), p.after i (p.frames i))

end P

/-- What happens to a connection with several paths. -/
inductive Op where
  /-- `send_ack_eliciting` (lib.rs:6724-6730), or `send_ack_eliciting_on_path`
  (lib.rs:6739-6751), of a connection that is not closed. -/
  | ask
  | askOn (k : Nat)
  /-- Another path becomes the active one. -/
  | migrate (k : Nat)
  /-- A probe timeout, with the number of timeouts in a row (recovery.rs:797-802). -/
  | pto (k : Nat) (e : Epoch) (count : Nat)
  /-- An epoch of a path is over (recovery.rs:864). -/
  | calm (k : Nat) (e : Epoch)
  /-- `send`, or `send_on_path` with both addresses. -/
  | send (i : In)
  | sendOn (k : Nat) (i : In)

/-- The paths, and which one is active. -/
structure Conn where
  paths : List P
  act : Nat

namespace Conn

def upd (c : Conn) (k : Nat) (f : P → P) : Conn := { c with paths := c.paths.modify k f }

/-- A packet on a path. -/
def sendOn (c : Conn) (k : Nat) (i : In) : Option (Nat × List Kind) × Conn :=
  match c.paths[k]? with
  | none => (none, c)
  | some p => ((p.call i).1.map fun l => (k, l), c.upd k fun _ => (p.call i).2)

/-- One operation: the packet it sends, with its path. -/
def step (c : Conn) : Op → Option (Nat × List Kind) × Conn
  | .ask => (none, c.upd c.act fun p => { p with needs := true })
  | .askOn k => (none, c.upd k fun p => { p with needs := true })
  | .migrate k => (none, { paths := c.paths.mapIdx fun j p => { p with active := decide (j = k) }, act := k })
  | .pto k e n => (none, c.upd k fun p => { p with probes := fun x => if x = e then min n maxProbes else p.probes x })
  | .calm k e => (none, c.upd k fun p => { p with probes := fun x => if x = e then 0 else p.probes x })
  | .send i => c.sendOn c.act i
  | .sendOn k i => c.sendOn k i

/-- A run: the packets and the connection after it. -/
def exec : Conn → List Op → List (Nat × List Kind) × Conn
  | c, [] => ([], c)
  | c, op :: l => ((c.step op).1.toList ++ (exec (c.step op).2 l).1, (exec (c.step op).2 l).2)

end Conn
end Verif.Ping
