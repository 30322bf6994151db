import Verif.Packet.Num

/-!
Model of key updates of 1-RTT packets: the part of `recv_single` that selects keys
(lib.rs:3274-3375), what `send_single` does to the pending update (lib.rs:4436, 4683-4685) and the
timer for old keys (lib.rs:7097-7109).

Packet protection is ideal: keys are numbered by generation, each derived from the one before
(`derive_next_packet_key`, crypto/mod.rs:183-198, 274-289), and a packet can be opened with one
generation only, the one its sender used, or with none if it was forged. Header protection is the
same for all generations and removed already.

Not modelled: paths, frames other than HANDSHAKE_DONE, and packets without frames. The library
itself never starts an update.
-/

namespace Verif.Packet.Keys
open Verif Verif.Packet

/-- A 1-RTT packet as it arrives. -/
structure Pkt where
  /-- keys of the peer it is protected with; `none` if it is not from the peer -/
  gen : Option Nat
  pn : Nat
  phase : Bool
  /-- contains HANDSHAKE_DONE -/
  done : Bool := false
  deriving DecidableEq, Repr

/-- `packet::KeyUpdate` (packet.rs:848-862). -/
structure Prev where
  gen : Nat
  pnOnUpdate : Nat
  acked : Bool
  timer : Nat
  deriving DecidableEq, Repr

/-- What of the connection matters. -/
structure K where
  isServer : Bool := false
  confirmed : Bool := false
  phase : Bool := false
  openGen : Nat := 0
  sealGen : Nat := 0
  prev : Option Prev := none
  seen : Window := {}
  closed : Bool := false

inductive Out where
  /-- not opened -/
  | dropped
  | duplicate
  | keyUpdateError
  | accepted
  deriving DecidableEq, Repr

/-- The generation a packet is opened with, and whether that is a new one (lib.rs:3274-3310). -/
def K.select (k : K) (p : Pkt) : Nat × Bool :=
  if k.confirmed && p.phase != k.phase then
    match k.prev with
    | some u => if p.pn < u.pnOnUpdate then (u.gen, false) else (k.openGen + 1, true)
    | none => (k.openGen + 1, true)
  else (k.openGen, false)

/-- The key update, once a packet was opened with new keys (lib.rs:3342-3373). -/
def K.update (k : K) (pn timer : Nat) : K :=
  { k with
    sealGen := k.sealGen + 1
    openGen := k.openGen + 1
    prev := some { gen := k.openGen, pnOnUpdate := pn, acked := false, timer := timer }
    phase := !k.phase }

/-- The last update is not marked as acknowledged (lib.rs:3346-3349). -/
def K.pending (k : K) : Bool :=
  match k.prev with
  | none => false
  | some u => !u.acked

/-- `recv_single` (lib.rs:3274-3375, 3752, 8806-8816); `timer` is three times the PTO from now. -/
def K.recv (k : K) (p : Pkt) (timer : Nat) : Out × K :=
  if k.closed then (.dropped, k)
  else
    let (g, new) := k.select p
    if p.gen ≠ some g then (.dropped, k)
    else if k.seen.contains p.pn then (.duplicate, k)
    else if new && k.pending then
      (.keyUpdateError, { k with closed := true })
    else
      let k := if new then k.update p.pn timer else k
      (.accepted, { k with
        seen := k.seen.insert p.pn
        confirmed := k.confirmed || (p.done && !k.isServer) })

/-- A 1-RTT packet is built: the mark is set whether or not anything is sent (lib.rs:4683-4685).
The packet is protected with `sealGen` and has the phase of the connection (lib.rs:4436). -/
def K.send (k : K) : K :=
  { k with prev := k.prev.map fun u => { u with acked := true } }

/-- `on_timeout` (lib.rs:7097-7109). -/
def K.timeout (k : K) (now : Nat) : K :=
  match k.prev with
  | none => k
  | some u => if u.timer ≤ now then { k with prev := none } else k

/-! ### Executions -/

inductive Act where
  | recv (p : Pkt) (timer : Nat)
  /-- `sent`: a packet went out; `ack`: with an ACK frame -/
  | send (sent ack : Bool)
  | timeout (now : Nat)
  /-- the handshake of a server is complete -/
  | complete
  deriving DecidableEq, Repr

/-- The connection with the packets it accepted and sent, the latter as generation, phase and whether
there was an ACK frame. -/
structure Y where
  k : K := {}
  accepted : List Pkt := []
  sent : List (Nat × Bool × Bool) := []
  failed : Bool := false

def Y.step (y : Y) : Act → Y
  | .recv p timer =>
    match y.k.recv p timer with
    | (.accepted, k) => { y with k := k, accepted := y.accepted ++ [p] }
    | (.keyUpdateError, k) => { y with k := k, failed := true }
    | (_, k) => { y with k := k }
  | .send sent ack =>
    if y.k.closed then y
    else { y with k := y.k.send, sent := if sent then y.sent ++ [(y.k.sealGen, y.k.phase, ack)] else y.sent }
  | .timeout now => { y with k := y.k.timeout now }
  | .complete => { y with k := { y.k with confirmed := y.k.confirmed || y.k.isServer } }

def Y.run (y : Y) (l : List Act) : Y := l.foldl Y.step y

/-- A connection that just got 1-RTT keys. -/
structure Y.Initial (y : Y) : Prop where
  k : y.k = { isServer := y.k.isServer }
  accepted : y.accepted = []
  sent : y.sent = []
  failed : y.failed = false

end Verif.Packet.Keys
