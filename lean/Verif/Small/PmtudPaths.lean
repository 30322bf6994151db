import Verif.Small.Pmtud

/-!
Model of path MTU discovery on a connection with several paths: which path a probe is made for,
on which it is sent, and to which its fate is reported (`/repo/quiche/src/lib.rs:3522-3573,
4292-4301, 4585-4648, 7704-7710`). Everything else that has to hold for a probe to be sent (the
handshake is confirmed, buffer and window have room, nothing is in the packet yet) is an input.
-/

namespace Verif.PmtudPaths
open Verif.Pmtud

/-- A path: its discovery, and the probes in its recovery that are neither acknowledged nor lost. -/
structure Path where
  pmtud : Option St := none
  out : List Nat := []
  deriving DecidableEq, Repr

structure Conn where
  path : Nat → Path
  active : Nat := 0

inductive Op where
  /-- a 1-RTT packet is sent on path `pid`, and a probe is possible -/
  | send (pid : Nat)
  /-- the fate of the oldest probe that was sent on path `pid` is known -/
  | fate (pid : Nat) (delivered : Bool)
  /-- `pid` becomes the active path (lib.rs:9127-9143) -/
  | activate (pid : Nat)
  /-- `revalidate_pmtu` (lib.rs:7704-7710) -/
  | revalidate

namespace Conn

def set (c : Conn) (i : Nat) (p : Path) : Conn := { c with path := fun j => if j = i then p else c.path j }

/-- The probe is that of the active path (lib.rs:4596-4646), but the packet, with the size of the
probe in its PING frame, is recorded on the path sent on (lib.rs:5474). -/
def send (c : Conn) (pid : Nat) : Conn :=
  match (c.path c.active).pmtud with
  | none => c
  | some s => match s.sendProbe with
    | none => c
    | some (n, s) =>
      let c := c.set c.active { c.path c.active with pmtud := some s }
      c.set pid { c.path pid with out := (c.path pid).out ++ [n] }

/-- The fate of a probe is reported to the path it was sent on (lib.rs:3525-3571, 4146-4301). -/
def fate (c : Conn) (pid : Nat) (delivered : Bool) : Conn :=
  match (c.path pid).out with
  | [] => c
  | n :: l => c.set pid { pmtud := (c.path pid).pmtud.map (·.report n delivered), out := l }

def step (c : Conn) : Op → Conn
  | .send pid => c.send pid
  | .fate pid d => c.fate pid d
  | .activate pid => { c with active := pid }
  | .revalidate => c.set c.active { c.path c.active with pmtud := (c.path c.active).pmtud.map (·.revalidate) }

def run (c : Conn) (ops : List Op) : Conn := ops.foldl step c

end Conn

end Verif.PmtudPaths
