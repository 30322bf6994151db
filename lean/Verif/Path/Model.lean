import Verif.Cid.Model

/-!
Model of `/repo/quiche/src/path.rs`: the network paths of a connection, their validation
and which one is active. Addresses, challenge data and instants are numbers; the loss
recovery of a path appears only as the round-trip time given to the timeout.
Statistics are left out.
-/

namespace Verif.Path
open Verif

/-- `PathState` (path.rs:53-68), in its order. -/
inductive PState where
  | failed
  | unknown
  | validating
  | validatingMtu
  | validated
  deriving DecidableEq, Repr

/-- The order derived for `PathState`. -/
def PState.rank : PState → Nat
  | .failed => 0
  | .unknown => 1
  | .validating => 2
  | .validatingMtu => 3
  | .validated => 4

/-- `MIN_CLIENT_INITIAL_LEN` (lib.rs:443). -/
abbrev minInitial : Nat := 1200
/-- `MIN_PROBING_SIZE` (lib.rs:451). -/
abbrev minProbing : Nat := 25
/-- `MAX_PROBING_TIMEOUTS` (lib.rs:493). -/
abbrev maxProbingTimeouts : Nat := 3

/-- A PATH_CHALLENGE sent: its data, the size of its packet and when. -/
structure Chal where
  data : Nat
  size : Nat
  time : Nat
  deriving DecidableEq, Repr

/-- `Path` (path.rs:124-226). `uid` is no part of it: it numbers the paths in the order
they were created, and no function reads it. -/
structure Path where
  uid : Nat
  laddr : Nat
  paddr : Nat
  scid : Option Nat := none
  dcid : Option Nat := none
  state : PState := .unknown
  active : Bool := false
  inFlight : List Chal := []
  maxChal : Nat := 0
  probingLost : Nat := 0
  lastLost : Option Nat := none
  received : List Nat := []
  receivedMax : Nat
  maxSend : Nat := 0
  verified : Bool := false
  peerVerified : Bool := false
  requested : Bool := false
  notified : Bool := false
  migrating : Bool := false
  deriving DecidableEq, Repr

/-- `Path::new` (path.rs:231-296). -/
def Path.new (uid laddr paddr recvMax : Nat) (initial : Bool) : Path :=
  if initial then { uid := uid, laddr := laddr, paddr := paddr, receivedMax := recvMax, state := .validated, scid := some 0, dcid := some 0 }
  else { uid := uid, laddr := laddr, paddr := paddr, receivedMax := recvMax }

namespace Path

/-- `active` (path.rs:317-319), with `working` (path.rs:311-313). -/
def isActive (p : Path) : Bool := p.active && decide (p.state ≠ .failed) && p.dcid.isSome

/-- `usable` (path.rs:323-327). -/
def usable (p : Path) : Bool := p.isActive || (decide (p.state = .validated) && p.dcid.isSome)

/-- `unused` (path.rs:331-334). -/
def unused (p : Path) : Bool := !p.isActive && p.dcid.isNone

/-- `probing_required` (path.rs:338-340). -/
def probingRequired (p : Path) : Bool := !p.received.isEmpty || p.requested

/-- `promote_to` (path.rs:344-348). -/
def promote (p : Path) (s : PState) : Path := if p.state.rank < s.rank then { p with state := s } else p

/-- `under_validation` (path.rs:364-366). -/
def underValidation (p : Path) : Bool := decide (p.state = .validating ∨ p.state = .validatingMtu)

/-- `request_validation` (path.rs:370-372). -/
def request (p : Path) : Path := { p with requested := true }

/-- `add_challenge_sent` with `on_challenge_sent` (path.rs:396-408). -/
def addChallenge (p : Path) (c : Chal) : Path :=
  let p := p.promote .validating
  { p with requested := false, inFlight := p.inFlight ++ [c] }

/-- `on_challenge_received` (path.rs:410-418). -/
def onChallenge (p : Path) (data : Nat) : Path :=
  if p.received.length = p.receivedMax then p
  else { p with received := p.received ++ [data], peerVerified := true }

/-- `has_pending_challenge` (path.rs:420-422). -/
def pending (p : Path) (data : Nat) : Bool := p.inFlight.any (·.data == data)

/-- The size kept by the closure of `on_response_received` (path.rs:429-437): that of the
last challenge with this data, 0 if there is none. -/
def sizeOf (l : List Chal) (data : Nat) : Nat := l.foldl (fun s c => if c.data = data then c.size else s) 0

/-- `on_response_received` (path.rs:425-457) up to the choice at its end. -/
def answer (p : Path) (data : Nat) : Path :=
  let size := sizeOf p.inFlight data
  let p := { p with verified := true, probingLost := 0, inFlight := p.inFlight.filter (·.data != data) }
  let p := p.promote .validatingMtu
  { p with maxChal := max p.maxChal size }

/-- `on_response_received` (path.rs:425-457): whether the path is now validated. -/
def onResponse (p : Path) (data : Nat) : Bool × Path :=
  let p := p.answer data
  if p.state = .validatingMtu then
    if p.maxChal ≥ minInitial then (true, p.promote .validated) else (false, p.request)
  else (false, p)

/-- `on_failed_validation` (path.rs:459-462). -/
def fail (p : Path) : Path := { p with state := .failed, active := false }

/-- Counting a lost probe (path.rs:497-512). -/
def countLost (p : Path) (t rtt : Nat) : Path :=
  match p.lastLost with
  | some last => if t - last ≥ rtt then { p with probingLost := p.probingLost + 1, lastLost := some t } else p
  | none => { p with probingLost := p.probingLost + 1, lastLost := some t }

/-- `on_loss_detection_timeout` (path.rs:469-525), the part about probes. -/
def onTimeout (p : Path) (now rtt : Nat) (server : Bool) : Path :=
  let lost := p.inFlight.find? (·.time ≤ now)
  let p := { p with inFlight := p.inFlight.filter fun c => !decide (c.time ≤ now) }
  match lost with
  | none => p
  | some c =>
    let p := p.countLost c.time rtt
    if p.probingLost ≥ maxProbingTimeouts ∨ (server = true ∧ p.maxSend < minProbing) then p.fail else p.request

/-- A server's active path that is not validated (path.rs:898-904). -/
def startMigrating (p : Path) : Path :=
  let p := { p with active := true, migrating := true }
  if p.underValidation then p else p.request

end Path

/-- `PathEvent` (path.rs:85-121). -/
inductive Event where
  | new (l p : Nat)
  | validated (l p : Nat)
  | failedValidation (l p : Nat)
  | closed (l p : Nat)
  | reusedScid (seq : Nat) (l p l' p' : Nat)
  | peerMigrated (l p : Nat)
  deriving DecidableEq, Repr

/-- `PathMap` (path.rs:618-635). The slab is a list of slots with the stack of its free
slots, as in the crate `slab`. -/
structure PathMap where
  slots : List (Option Path)
  free : List Nat := []
  maxPaths : Nat
  addrs : List ((Nat × Nat) × Nat)
  events : List Event := []
  server : Bool
  deriving DecidableEq, Repr

/-- `PathMap::new` (path.rs:640-662). -/
def PathMap.new (p : Path) (maxPaths : Nat) (server : Bool) : PathMap :=
  { slots := [some { p with active := true }], maxPaths := maxPaths, addrs := [((p.laddr, p.paddr), 0)], server := server }

namespace PathMap

/-- `get` (path.rs:670-672). -/
def get (m : PathMap) (pid : Nat) : Option Path := (m.slots[pid]?).join

/-- The number of paths (path.rs:740-742). -/
def len (m : PathMap) : Nat := (m.slots.filter (·.isSome)).length

/-- What `get_mut` is used for. -/
def upd (m : PathMap) (pid : Nat) (f : Path → Path) : PathMap := { m with slots := m.slots.modify pid (·.map f) }

/-- The first path, by identifier, that passes a test. -/
def find (m : PathMap) (t : Path → Bool) : Option Nat := m.slots.findIdx? fun s => s.any t

/-- `get_active_path_id` (path.rs:707-711); `get_active` and `get_active_mut` are the path
it names (path.rs:696-724). -/
def activeId (m : PathMap) : Option Nat := m.find (·.isActive)

/-- `path_id_from_addrs` (path.rs:746-750). -/
def fromAddrs (m : PathMap) (a : Nat × Nat) : Option Nat := (m.addrs.find? (·.1 == a)).map (·.2)

/-- `notify_event` (path.rs:805-807). -/
def notify (m : PathMap) (e : Event) : PathMap := { m with events := m.events ++ [e] }

/-- Taking a path out of the table (path.rs:768-774). -/
def drop (m : PathMap) (pid : Nat) (p : Path) : PathMap :=
  { m with slots := m.slots.set pid none, free := pid :: m.free, addrs := m.addrs.filter (·.1 != (p.laddr, p.paddr)) }.notify
    (.closed p.laddr p.paddr)

/-- `make_room_for_new_path` (path.rs:757-777): `none` is the error `Done`. -/
def makeRoom (m : PathMap) : Option PathMap :=
  if m.len < m.maxPaths then some m
  else
    match m.find (·.unused) with
    | none => none
    | some pid =>
      match m.get pid with
      | none => none
      | some p => some (m.drop pid p)

/-- `Slab::insert` of the crate `slab`. -/
def slabInsert (m : PathMap) (p : Path) : Nat × PathMap :=
  match m.free with
  | k :: fs => (k, { m with slots := m.slots.set k (some p), free := fs })
  | [] => (m.slots.length, { m with slots := m.slots ++ [some p] })

/-- `BTreeMap::insert` for the addresses. -/
def mapAddr (m : PathMap) (a : Nat × Nat) (pid : Nat) : PathMap := { m with addrs := (a, pid) :: m.addrs.filter (·.1 != a) }

/-- `insert_path` (path.rs:787-802). -/
def insertPath (m : PathMap) (p : Path) (server : Bool) : Option (Nat × PathMap) :=
  match m.makeRoom with
  | none => none
  | some m =>
    let (pid, m) := m.slabInsert p
    let m := m.mapAddr (p.laddr, p.paddr) pid
    some (pid, if server then m.notify (.new p.laddr p.paddr) else m)

/-- The events and the flags of `notify_failed_validations` (path.rs:815-829). -/
def failing (s : Option Path) : Bool := s.any fun p => decide (p.state = .failed) && !p.notified

/-- `notify_failed_validations` (path.rs:815-829). -/
def notifyFailed (m : PathMap) : PathMap :=
  { m with
    events := m.events ++ (m.slots.filter failing).filterMap fun s => s.map fun p => .failedValidation p.laddr p.paddr
    slots := m.slots.map fun s => if failing s then s.map fun p => { p with notified := true } else s }

/-- `find_candidate_path` (path.rs:832-838). -/
def candidate (m : PathMap) : Option Nat := m.find (·.usable)

/-- The events of a path just validated (path.rs:850-866). -/
def announce (m : PathMap) (pid : Nat) (p : Path) (active : Nat) : PathMap :=
  let m := (m.upd pid fun p => { p with migrating := false }).notify (.validated p.laddr p.paddr)
  if pid = active ∧ p.migrating = true then m.notify (.peerMigrated p.laddr p.paddr) else m

/-- `on_response_received` (path.rs:841-869). -/
def onResponse (m : PathMap) (data : Nat) : Except Cid.Err PathMap :=
  match m.activeId with
  | none => .error .invalidState
  | some active =>
    match m.find (·.pending data) with
    | none => .ok m
    | some pid =>
      match m.get pid with
      | none => .ok m
      | some p =>
        let m := m.upd pid fun p => (p.onResponse data).2
        .ok (if (p.onResponse data).1 then m.announce pid (p.onResponse data).2 active else m)

/-- The old active path, if any, is no longer it (path.rs:883-885). -/
def deactivate (m : PathMap) : PathMap :=
  match m.activeId with
  | none => m
  | some old => m.upd old fun p => { p with active := false }

/-- `set_active_path` (path.rs:880-907). -/
def setActive (m : PathMap) (pid : Nat) : Except Cid.Err Unit × PathMap :=
  let m := m.deactivate
  match m.get pid with
  | none => (.error .invalidState, m)
  | some p =>
    if m.server then
      if p.state = .validated then
        (.ok (), (m.upd pid fun p => { p with active := true }).notify (.peerMigrated p.laddr p.paddr))
      else (.ok (), m.upd pid (·.startMigrating))
    else (.ok (), m.upd pid fun p => { p with active := true })

end PathMap
end Verif.Path
