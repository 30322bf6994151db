import Verif.Octets.Model

/-!
Model of the time with bytes in flight (`/repo/quiche/src/recovery/bytes_in_flight.rs`) and of
the question whether the recovery of a path may be made anew (`/repo/quiche/src/path.rs`). Times
are numbers; the difference of an instant and a later one is zero, as `Instant` has it.
-/

namespace Verif.InFlight

/-- `BytesInFlight` (bytes_in_flight.rs:38-52). -/
structure Flight where
  bytes : Nat := 0
  start : Option Nat := none
  opened : Nat := 0
  closed : Nat := 0
  deriving DecidableEq, Repr

namespace Flight

/-- `update_in_flight_duration` (bytes_in_flight.rs:94-104). -/
def update (f : Flight) (now : Nat) : Flight :=
  match f.start with
  | none => f
  | some s =>
    if f.bytes = 0 then { f with opened := 0, closed := f.closed + (now - s), start := none }
    else { f with opened := now - s }

/-- `add` (bytes_in_flight.rs:57-69). -/
def add (f : Flight) (delta now : Nat) : Flight :=
  if delta = 0 then f
  else
    match f.start with
    | some _ => { f with bytes := f.bytes + delta }.update now
    | none => { f with bytes := f.bytes + delta, start := some now }

/-- `saturating_subtract` (bytes_in_flight.rs:73-76). -/
def sub (f : Flight) (delta now : Nat) : Flight := { f with bytes := f.bytes - delta }.update now

/-- `get_duration` (bytes_in_flight.rs:89-91). -/
def duration (f : Flight) : Nat := f.closed + f.opened

/-- `can_reinit_recovery` (path.rs:530-540). -/
def canReinit (f : Flight) : Bool := f.bytes = 0 ∧ f.duration = 0

end Flight

/-- A packet was sent, or packets left the network: acknowledged, lost or discarded. -/
inductive Ev
  | sent (bytes now : Nat)
  | gone (bytes now : Nat)
  deriving DecidableEq, Repr

/-- One event. -/
def Flight.step (f : Flight) : Ev → Flight
  | .sent b now => f.add b now
  | .gone b now => f.sub b now

/-- Events in order. -/
def Flight.run (f : Flight) (evs : List Ev) : Flight := evs.foldl Flight.step f

end Verif.InFlight
