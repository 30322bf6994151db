/-!
Model of path MTU discovery (`/repo/quiche/src/pmtud.rs`) and of its use by a connection
(`/repo/quiche/src/lib.rs`): a probe is sent when `should_probe` holds, and its fate is
reported once. Sizes are `Nat`.
-/

namespace Verif.Pmtud

/-- `MIN_PLPMTU` (pmtud.rs:26), `MIN_CLIENT_INITIAL_LEN` (lib.rs:452). -/
abbrev minMtu : Nat := 1200
/-- `MAX_PROBES_DEFAULT` (pmtud.rs:21). -/
abbrev maxProbesDefault : Nat := 3

/-- `Pmtud` (pmtud.rs:29-56). -/
structure St where
  pmtu : Option Nat := none
  probeSize : Nat
  maxMtu : Nat
  failed : Option Nat := none
  success : Option Nat := none
  inFlight : Bool := false
  failures : Nat := 0
  maxProbes : Nat
  deriving DecidableEq, Repr

/-- `Pmtud::new` (pmtud.rs:62-79). -/
def new (maxMtu maxProbes : Nat) : St :=
  { maxMtu := maxMtu, probeSize := maxMtu, maxProbes := if maxProbes = 0 then maxProbesDefault else maxProbes }

namespace St

/-- `should_probe` (pmtud.rs:85-89). -/
def shouldProbe (s : St) : Bool := !s.inFlight && s.pmtu.isNone && s.failed != some minMtu

/-- `set_probe_size` (pmtud.rs:92-94). -/
def setProbeSize (s : St) (n : Nat) : St := { s with probeSize := min n s.maxMtu }

/-- `get_current_mtu` (pmtud.rs:103-105). -/
def currentMtu (s : St) : Nat := s.success.getD minMtu

/-- `restart_pmtud` (pmtud.rs:226-232). -/
def restart (s : St) : St :=
  { s.setProbeSize s.maxMtu with failed := none, success := none, pmtu := none, failures := 0 }

/-- `set_pmtu` (pmtud.rs:246-250). -/
def setPmtu (s : St) (n : Nat) : St := { s with pmtu := some n, probeSize := n, failures := 0 }

/-- `update_probe_size` (pmtud.rs:116-162). -/
def updateProbeSize (s : St) : St :=
  match s.failed, s.success with
  | some f, some g =>
    if f ≤ g then s.restart
    else if f - g ≤ 1 then s.setPmtu g
    else { s with probeSize := (g + f) / 2 }
  | some f, none => { s with probeSize := (minMtu + f) / 2 }
  | none, some g => s.setPmtu g
  | none, none => { s with probeSize := s.maxMtu }

/-- The largest success (pmtud.rs:173-177); the order of `Option` puts `None` first. -/
def newSuccess (s : St) (size : Nat) : Nat :=
  match s.success with
  | none => min size s.maxMtu
  | some g => max (min size s.maxMtu) g

/-- The smallest failure (pmtud.rs:214-217). -/
def newFailed (s : St) (size : Nat) : Nat :=
  match s.failed with
  | none => size
  | some f => min f size

/-- `successful_probe` (pmtud.rs:170-184). -/
def successfulProbe (s : St) (size : Nat) : St :=
  let s := { s with failures := 0, success := some (s.newSuccess size) }
  { s.updateProbeSize with inFlight := false }

/-- `failed_probe` (pmtud.rs:187-222). -/
def failedProbe (s : St) (size : Nat) : St :=
  let size := max size minMtu
  let s := { s with failures := s.failures + 1 }
  if s.failures < s.maxProbes then { s with inFlight := false }
  else
    let s := { s with failures := 0, failed := some (s.newFailed size) }
    { s.updateProbeSize with inFlight := false }

/-- `revalidate_pmtu` (pmtud.rs:237-244). -/
def revalidate (s : St) : St :=
  match s.pmtu with
  | none => s
  | some p => { s.setProbeSize p with pmtu := none, failures := 0, success := none }

/-- Sending a probe (lib.rs:4599-4647; path.rs:380-395): its size goes with the packet. -/
def sendProbe (s : St) : Option (Nat × St) :=
  if s.shouldProbe then some (s.probeSize, { s with inFlight := true }) else none

/-- The fate of a probe of the given size: acknowledged (lib.rs:3528-3571) or declared lost
(lib.rs:4292-4301). -/
def report (s : St) (size : Nat) (delivered : Bool) : St :=
  if delivered then s.successfulProbe size else s.failedProbe size

/-- One round: a probe, if one is due, and its fate, which `net` decides by size. -/
def round (net : Nat → Bool) (s : St) : St :=
  match s.sendProbe with
  | none => s
  | some (n, s) => s.report n (net n)

/-- Rounds with a network that decides anew each time. -/
def rounds (s : St) : List (Nat → Bool) → St
  | [] => s
  | net :: l => (s.round net).rounds l

end St

/-- What happens to path MTU discovery. -/
inductive Op where
  | round (net : Nat → Bool)
  | revalidate

def St.step (s : St) : Op → St
  | .round net => s.round net
  | .revalidate => s.revalidate

def St.run (s : St) (ops : List Op) : St := ops.foldl St.step s

end Verif.Pmtud
