import Verif.Small.Pmtud

/-!
Model of how `send_on_path` and `send_single` (`/repo/quiche/src/lib.rs:3956-5525`) put packets
together, as far as sizes go. A frame is its length on the wire. Which frames are wanted, how many
bytes the window allows and so on are inputs, chosen anew for each packet.
-/

namespace Verif.Asm

/-- `MIN_CLIENT_INITIAL_LEN` (lib.rs:443). -/
abbrev minInitial : Nat := 1200
/-- `PAYLOAD_MIN_LEN` (lib.rs:448). -/
abbrev payloadMin : Nat := 4
/-- `PAYLOAD_LENGTH_LEN` (lib.rs:477). -/
abbrev lengthLen : Nat := 2

/-- The packet types that are put together here. -/
inductive Ty where
  | initial | zeroRtt | handshake | short
  deriving DecidableEq, Repr

/-- A frame that is wanted in a packet after the ACK frame; all of these elicit acknowledgements.
`whole`: a frame that is sent whole or not at all (`push_frame_to_pkt!`, lib.rs:479-493; also
DATAGRAM, lib.rs:5099-5169). `data over hdr avail`: CRYPTO (lib.rs:4999-5072) and STREAM
(lib.rs:5173-5286), with `hdr` bytes in front of as many of the `avail` bytes as fit, if more than
`over` bytes are left. -/
inductive Piece where
  | whole (len : Nat)
  | data (over hdr avail : Nat)
  deriving DecidableEq, Repr

/-- What one packet is made from. -/
structure In where
  ty : Ty
  /-- the MTU that discovery has found so far, if it is enabled -/
  mtu : Option Nat := none
  /-- length of the header up to the length field or the packet number -/
  hdr : Nat
  pnLen : Nat := 1
  tag : Nat := 16
  /-- `cwnd_available()` of the path -/
  cwnd : Nat
  /-- the ACK frame that could be sent, and whether it is due -/
  ack : Option (Nat × Bool) := none
  /-- a probe wanted for path MTU discovery of the active path (path.rs:388-392), and
  `cwnd_available()` of that path -/
  probe : Option (Nat × Nat) := none
  pieces : List Piece := []
  /-- a PING is wanted if nothing else elicits an acknowledgement -/
  ping : Bool := false
  validated : Bool := true
  deriving DecidableEq, Repr

structure Pkt where
  ty : Ty
  /-- `payload_offset` -/
  off : Nat
  frames : List Nat
  tag : Nat
  eliciting : Bool
  inFlight : Bool
  probe : Bool
  deriving DecidableEq, Repr

/-- Length of the payload. -/
def Pkt.payload (p : Pkt) : Nat := p.frames.sum

/-- `written` (packet.rs:716): the AEAD adds the tag. -/
def Pkt.size (p : Pkt) : Nat := p.off + p.payload + p.tag

/-- `done` stands for `Done` and for `BufferTooShort`. -/
inductive Res where
  | done
  | panic
  | ok (p : Pkt)
  deriving DecidableEq, Repr

/-- Bytes for the header, the packet number and the tag (lib.rs:4459-4468). -/
def In.overhead (x : In) : Nat := x.hdr + x.pnLen + x.tag + (if x.ty = .short then 0 else lengthLen)

/-- Where the payload begins (lib.rs:4507-4514). -/
def In.off (x : In) : Nat := x.hdr + (if x.ty = .short then 0 else lengthLen) + x.pnLen

/-- The packet so far: frames, bytes left, whether it elicits an acknowledgement, whether it counts
as in flight, whether it is a probe. -/
structure B where
  frames : List Nat := []
  left : Nat
  eliciting : Bool := false
  inFlight : Bool := false
  probe : Bool := false
  deriving DecidableEq, Repr

namespace B

/-- `push_frame_to_pkt!` (lib.rs:479-493). That `to_bytes` finds room in the buffer is a theorem. -/
def push (b : B) (n : Nat) : B := { b with frames := b.frames ++ [n], left := b.left - n }

/-- A frame that elicits an acknowledgement. -/
def pushE (b : B) (n : Nat) : B := { b.push n with eliciting := true, inFlight := true }

def piece (b : B) : Piece → B
  | .whole n => if n ≤ b.left then b.pushE n else b
  | .data over hdr avail =>
    if b.left > over ∧ hdr ≤ b.left then b.pushE (hdr + min avail (b.left - hdr)) else b

/-- The ACK frame (lib.rs:4526-4569). `cw` is the window less the overhead. -/
def ack (b : B) (cw : Nat) : Option (Nat × Bool) → B
  | none => b
  | some (n, due) => if (due ∨ n < cw) ∧ n ≤ b.left then b.push n else b

/-- The end of the packet: PING (lib.rs:5294-5306), or nothing at all (lib.rs:5320-5326). -/
def ping (b : B) (want : Bool) : B :=
  if want ∧ b.eliciting = false ∧ b.left ≥ 1 then b.pushE 1 else b

/-- Padding of a 1-RTT packet after an Initial packet or to an address not validated
(lib.rs:5336-5345). -/
def fill (b : B) (want : Bool) : B :=
  if want ∧ b.left ≥ 1 then { b.push b.left with inFlight := true } else b

/-- The least payload (lib.rs:5347-5360). -/
def least (b : B) : B :=
  if b.frames.sum < payloadMin then
    if payloadMin - b.frames.sum ≤ b.left then { b.push (payloadMin - b.frames.sum) with inFlight := true } else b
  else b

end B

/-- The probe (lib.rs:4585-4648; path.rs:380-394). `cap` is the length of the buffer. -/
def In.probing (x : In) (cap : Nat) (b : B) : Option (Option B) :=
  match x.probe with
  | none => some (some b)
  | some (size, allow) =>
    if x.ty = .short ∧ allow > size ∧ cap ≥ size ∧ b.frames = [] then
      if size < x.overhead then some none
      else if size - x.overhead = 0 then none
      else
        let b := { b with left := size - x.overhead }
        some (some { (b.push (size - x.overhead - 1)).pushE 1 with probe := true })
    else some (some b)

/-- From the ACK frame to the end of the packet. -/
def In.content (x : In) (cap : Nat) (left : Nat) (hasInitial : Bool) : Res :=
  let cw := x.cwnd - x.overhead
  let b := ({ left := left } : B).ack cw x.ack
  -- lib.rs:4571-4576
  let b := { b with left := min b.left (cw - (left - b.left)) }
  match x.probing cap b with
  | none => .panic
  | some none => .done
  | some (some b) =>
    let b := (x.pieces.foldl B.piece b).ping x.ping
    if b.frames = [] then .done
    else
      let b := (b.fill ((hasInitial || !x.validated) && x.ty = .short)).least
      .ok { ty := x.ty, off := x.off, frames := b.frames, tag := x.tag, eliciting := b.eliciting, inFlight := b.inFlight, probe := b.probe }

/-- `send_single` (lib.rs:4101-5525) with a buffer of `cap` bytes. -/
def In.single (x : In) (cap : Nat) (hasInitial : Bool) : Res :=
  -- lib.rs:4105-4107, 4444
  if cap = 0 ∨ cap < x.hdr then .done
  else
    -- lib.rs:4382-4387
    let left := match x.mtu with
      | some m => min m cap
      | none => cap
    -- lib.rs:4470-4490
    if left < x.overhead then .done
    else if left - x.overhead < payloadMin then .done
    else x.content cap (left - x.overhead) hasInitial

/-- One turn of the loop of `send_on_path`: the packet to be made, and whether the next one would
have to be a probe packet after a timeout or go to another path (lib.rs:4056-4070). -/
structure Turn where
  x : In
  stop : Bool := false
  deriving DecidableEq, Repr

/-- A UDP datagram: the packets in it and the zeros after them. -/
structure Dgram where
  pkts : List Pkt := []
  pad : Nat := 0
  deriving DecidableEq, Repr

def Dgram.size (d : Dgram) : Nat := (d.pkts.map Pkt.size).sum + d.pad

/-- The loop (lib.rs:4032-4071): `left` bytes are left; the packets made so far. `none` is a
panic. The list ends where there is nothing more to send. -/
def loop : List Turn → Nat → List Pkt → Option (List Pkt × Nat)
  | [], left, l => some (l, left)
  | t :: ts, left, l =>
    if left = 0 then some (l, left)
    else
      match t.x.single left (l.any fun p => p.ty == .initial) with
      | .done => some (l, left)
      | .panic => none
      | .ok p =>
        if p.ty = .short ∨ t.stop then some (l ++ [p], left - p.size)
        else loop ts (left - p.size) (l ++ [p])

/-- The datagram made with at most `limit` bytes (lib.rs:4032-4088); `some none` is `Done`. -/
def dgram (ts : List Turn) (limit : Nat) : Option (Option Dgram) :=
  match loop ts limit [] with
  | none => none
  | some (l, left) =>
    let done := (l.map Pkt.size).sum
    if done = 0 then some none
    else
      let pad := if (l.any fun p => p.ty == .initial) ∧ left > 0 ∧ done < minInitial then min left (minInitial - done) else 0
      some (some { pkts := l, pad })

/-! ### How large a datagram may be -/

/-- What the size of a datagram is derived from: `max_datagram_size` of the path, path MTU
discovery, and the `max_udp_payload_size` that the peer has declared. One path only. -/
structure L where
  mds : Nat
  pmtud : Option Pmtud.St := none
  peer : Option Nat := none
  deriving DecidableEq, Repr

namespace L

/-- The peer's transport parameters (lib.rs:7980-7998). -/
def params (l : L) (peer : Nat) : L :=
  let mds := match l.pmtud with
    | some p => if p.shouldProbe then min p.probeSize peer else min l.mds peer
    | none => min l.mds peer
  { l with mds, peer := some peer }

/-- `max_send_udp_payload_size` (lib.rs:6692-6711). -/
def maxUdp (l : L) (established : Bool) : Nat := if established then min 16383 l.mds else minInitial

/-- The limit of a datagram (lib.rs:3993-4024). `out` is the length of the buffer. -/
def base (l : L) (out : Nat) (established completed : Bool) : L × Nat :=
  match l.pmtud with
  | some p =>
    if p.shouldProbe then
      let size := if completed then p.probeSize else p.currentMtu
      ({ l with mds := size }, min out size)
    else (l, min out (l.maxUdp established))
  | none => (l, min out (l.maxUdp established))

/-- With `budget`, what an unvalidated client may be sent (lib.rs:4026-4030). -/
def limit (l : L) (out : Nat) (established completed : Bool) (budget : Option Nat) : L × Nat :=
  match budget with
  | some n => ((l.base out established completed).1, min (l.base out established completed).2 n)
  | none => l.base out established completed

end L

/-! ### DATAGRAM frames -/

/-- `dgram_max_writable_len` (lib.rs:6979-7003), with the peer's limit for the frame. -/
def writable (maxUdp dcidLen tag peerFrame : Nat) : Option Nat :=
  let n := min peerFrame (maxUdp - (1 + dcidLen) - 4 - tag)
  if n < 1 + 2 then none else some (n - (1 + 2))

end Verif.Asm
