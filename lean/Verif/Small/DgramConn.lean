import Verif.Small.Dgram

/-!
DATAGRAM frames in a connection (`/repo/quiche/src/lib.rs`): how they share packets with STREAM frames, and their way from
one application to the other.

* Of a packet matters what is left of it when its DATAGRAM and STREAM frames are made, and of the streams only the first of
  the flush queue that was not stopped. (How streams are scheduled is C27, C28 and C61.)
* The network may lose, delay and reorder packets. That a packet is processed at most once is C35.
-/

namespace Verif.Dgram

variable {α : Type}

/-- `MAX_STREAM_OVERHEAD` (frame.rs:43). -/
abbrev streamOverhead : Nat := 12

/-- The flush queue of the streams: empty, only streams that the peer has stopped (lib.rs:5186-5193), or a stream whose frame has
a header of `hdr` bytes in front (lib.rs:5213-5216). -/
inductive Flush where
  | empty
  | stopped
  | ready (hdr : Nat)
  deriving DecidableEq, Repr

/-- A packet that is being made, at lib.rs:5075. `app`: it is a 1-RTT or 0-RTT packet. `active`: it goes out on the active path.
`writable`: what `dgram_max_writable_len` returns. -/
structure Slot where
  app : Bool := true
  active : Bool := true
  closing : Bool := false
  left : Nat
  writable : Option Nat
  flush : Flush
  deriving DecidableEq, Repr

/-- The send queue and `emit_dgram` (lib.rs:1537-1540, 2194). -/
structure Tx (α : Type) where
  q : Queue α
  emit : Bool := true
  deriving DecidableEq, Repr

/-- The loop over the flush queue (lib.rs:5173-5218), whether it makes a frame. -/
def streamFrame (x : Slot) (left : Nat) : Bool :=
  x.app && !x.closing && x.active && left > streamOverhead && match x.flush with
  | .ready hdr => hdr ≤ left
  | _ => false

/-- DATAGRAM and STREAM frames of a packet (lib.rs:4121-4125, 5075-5289): the datagrams, and whether there is a STREAM frame. -/
def Tx.packet (size : α → Nat) (t : Tx α) (x : Slot) : List α × Bool × Tx α :=
  let max := if t.q.queue = [] then none else x.writable
  let doStream := !t.emit && x.flush ≠ .empty
  let doDgram := t.emit && max.isSome || !doStream && max.isSome
  let r := if x.app ∧ x.left > 2 ∧ x.closing = false ∧ x.active ∧ doDgram then
      match max with
      | some m => pack size m t.q x.left
      | none => ([], x.left, t.q)
    else ([], x.left, t.q)
  (r.1, r.1.isEmpty && streamFrame x r.2.1, { q := r.2.2, emit := r.1.isEmpty })

/-- The packets made one after another. -/
def Tx.packets (size : α → Nat) (t : Tx α) : List Slot → List (List α × Bool) × Tx α
  | [] => ([], t)
  | x :: xs =>
    let r := t.packet size x
    let s := r.2.2.packets size xs
    ((r.1, r.2.1) :: s.1, s.2)

/-- The frames of a received packet (lib.rs:3444-3464); an error ends the packet, which then is not acknowledged (3500-3503). -/
def recvPkt (size : α → Nat) (q : Queue α) (enabled : Bool) : List α → Queue α × Option Err
  | [] => (q, none)
  | d :: ds => match recvFrame size q enabled d with
    | .ok q => recvPkt size q enabled ds
    | .error e => (q, some e)

/-- One direction of a connection. `wire`: datagrams of the packets under way. `taken` and `given`: what the one application
has handed over, and the other has got. -/
structure Way (α : Type) where
  tx : Tx α
  wire : List (List α) := []
  rx : Queue α
  taken : List α := []
  given : List α := []

inductive WayOp (α : Type) where
  | send (writable : Option Nat) (d : α)
  | purge (f : α → Bool)
  | packet (x : Slot)
  /-- a packet arrives -/
  | deliver (i : Nat)
  | lose (i : Nat)
  /-- the application reads with a buffer of `len` bytes -/
  | recv (len : Nat)

def Way.step (size : α → Nat) (enabled : Bool) (s : Way α) : WayOp α → Way α
  | .send w d => match dgramSend size s.tx.q w d with
    | .ok q => { s with tx := { s.tx with q := q }, taken := s.taken ++ [d] }
    | .error _ => s
  | .purge f => { s with tx := { s.tx with q := s.tx.q.purge size f } }
  | .packet x =>
    let r := s.tx.packet size x
    { s with tx := r.2.2, wire := s.wire ++ [r.1] }
  | .deliver i => { s with rx := (recvPkt size s.rx enabled ((s.wire[i]?).getD [])).1, wire := s.wire.eraseIdx i }
  | .lose i => { s with wire := s.wire.eraseIdx i }
  | .recv len => match dgramRecv size s.rx len with
    | (.ok d, q) => { s with rx := q, given := s.given ++ [d] }
    | (.error _, q) => { s with rx := q }

def Way.run (size : α → Nat) (enabled : Bool) (s : Way α) (ops : List (WayOp α)) : Way α := ops.foldl (Way.step size enabled) s

end Verif.Dgram
