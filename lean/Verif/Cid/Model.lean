import Verif.Octets.Model

/-!
Model of `/repo/quiche/src/cid.rs`: the connection IDs of a connection, those handed to
the peer (source) and those received from it (destination). Sequence numbers are `Nat`
(the code has `u64`; `next_scid_seq` would need 2^64 calls to overflow, and sequence
numbers of the peer are below 2^62). A `HashSet` is a list without duplicates; nothing
depends on its order.
-/

namespace Verif.Cid
open Verif

inductive Err where
  | idLimit
  | invalidState
  | invalidFrame
  | outOfIdentifiers
  deriving DecidableEq, Repr

/-- `ConnectionIdEntry` (cid.rs:80-94). -/
structure Entry where
  cid : Bytes
  seq : Nat
  token : Option Nat
  path : Option Nat
  deriving DecidableEq, Repr

/-- `BoundedConnectionIdSeqSet` (cid.rs:45-77). -/
structure SeqSet where
  inner : List Nat := []
  capacity : Nat
  deriving DecidableEq, Repr

namespace SeqSet

/-- `insert` (cid.rs:63-69). -/
def insert (s : SeqSet) (e : Nat) : Except Err SeqSet :=
  if s.inner.length ≥ s.capacity then .error .idLimit
  else .ok (if s.inner.contains e then s else { s with inner := s.inner ++ [e] })

/-- `remove` (cid.rs:71-73). -/
def remove (s : SeqSet) (e : Nat) : SeqSet := { s with inner := s.inner.filter (· != e) }

end SeqSet

/-- `BoundedNonEmptyConnectionIdVecDeque` (cid.rs:96-103). -/
structure Deque where
  inner : List Entry
  capacity : Nat
  deriving DecidableEq, Repr

namespace Deque

/-- `resize` (cid.rs:117-121). -/
def resize (d : Deque) (n : Nat) : Deque := if n > d.capacity then { d with capacity := n } else d

/-- `get` (cid.rs:129-132). -/
def get (d : Deque) (seq : Nat) : Option Entry := d.inner.find? (·.seq == seq)

/-- `*oe = e` for the first entry with the number of `e`. -/
def put : List Entry → Entry → List Entry
  | [], _ => []
  | x :: l, e => if x.seq = e.seq then e :: l else x :: put l e

/-- `insert` (cid.rs:160-172). -/
def insert (d : Deque) (e : Entry) : Except Err Deque :=
  match d.get e.seq with
  | some _ => .ok { d with inner := put d.inner e }
  | none => if d.inner.length ≥ d.capacity then .error .idLimit else .ok { d with inner := d.inner ++ [e] }

/-- Removing the first entry with this number. -/
def del : List Entry → Nat → List Entry
  | [], _ => []
  | x :: l, seq => if x.seq = seq then l else x :: del l seq

/-- `remove` (cid.rs:189-199): the entry removed, if any. -/
def remove (d : Deque) (seq : Nat) : Except Err (Option Entry × Deque) :=
  if d.inner.length ≤ 1 then .error .outOfIdentifiers
  else .ok (d.get seq, { d with inner := del d.inner seq })

end Deque

/-- `ConnectionIdentifiers` (cid.rs:222-258). -/
structure Ids where
  dcids : Deque
  scids : Deque
  advertise : List Nat := []
  retire : SeqSet
  retiredScids : List Bytes := []
  peerRetirePriorTo : Nat := 0
  largestDestSeq : Nat := 0
  nextScidSeq : Nat := 1
  retirePriorTo : Nat := 0
  sourceLimit : Nat := 2
  zeroLenScid : Bool
  zeroLenDcid : Bool := false
  deriving DecidableEq, Repr

/-- `RETIRED_CONN_ID_LIMIT_MULTIPLIER` (cid.rs:43). -/
abbrev retiredMultiplier : Nat := 3

/-- `usize::MAX / 2` on a 64-bit machine. -/
abbrev halfUsize : Nat := 2 ^ 63 - 1

/-- `ConnectionIdentifiers::new` (cid.rs:265-320). -/
def new (destLimit : Nat) (scid : Bytes) (pathId : Nat) (token : Option Nat) : Ids :=
  let destLimit := if destLimit < 2 then 2 else destLimit
  { scids := { inner := [{ cid := scid, seq := 0, token := token, path := some pathId }], capacity := 2 * 2 - 1 }
    dcids := { inner := [{ cid := [], seq := 0, token := none, path := some pathId }], capacity := destLimit }
    retire := { capacity := min (2 ^ 64 - 1) (destLimit * retiredMultiplier) }
    zeroLenScid := scid.isEmpty }

namespace Ids

/-- `set_source_conn_id_limit` (cid.rs:323-334). -/
def setSourceLimit (s : Ids) (v : Nat) : Ids :=
  let v := min v halfUsize
  if v ≥ 2 then { s with sourceLimit := v, scids := s.scids.resize (2 * v - 1) } else s

/-- The least element of a list (`Iterator::min`). -/
def least : List Nat → Option Nat
  | [] => none
  | x :: l => match least l with
    | none => some x
    | some y => some (min x y)

/-- `lowest_usable_scid_seq` (cid.rs:644-656). -/
def lowestUsable (s : Ids) : Except Err Nat :=
  match least ((s.scids.inner.map (·.seq)).filter (· ≥ s.retirePriorTo)) with
  | none => .error .invalidState
  | some n => .ok n

/-- `lowest_available_dcid_seq` (cid.rs:661-672). -/
def lowestAvailable (s : Ids) : Option Nat :=
  least ((s.dcids.inner.filter (·.path.isNone)).map (·.seq))

/-- `mark_advertise_new_scid_seq` (cid.rs:733-745). -/
def markAdvertise (s : Ids) (seq : Nat) (b : Bool) : Ids :=
  if b then { s with advertise := s.advertise ++ [seq] } else { s with advertise := s.advertise.erase seq }

/-- `mark_retire_dcid_seq` (cid.rs:751-761). -/
def markRetire (s : Ids) (seq : Nat) (b : Bool) : Except Err Unit × Ids :=
  if b then
    match s.retire.insert seq with
    | .error e => (.error e, s)
    | .ok r => (.ok (), { s with retire := r })
  else (.ok (), { s with retire := s.retire.remove seq })

/-- `new_scid` (cid.rs:400-424), from the check of the token on. -/
def newScidCont (s : Ids) (cid : Bytes) (token : Option Nat) (advertise : Bool) (path : Option Nat) : Except Err Nat × Ids :=
  let seq := s.nextScidSeq
  if token.isNone ∧ seq ≠ 0 then (.error .invalidState, s)
  else
    match s.scids.inner.find? (·.cid == cid) with
    | some e => if e.token ≠ token then (.error .invalidState, s) else (.ok e.seq, s)
    | none =>
      match s.scids.insert { cid := cid, seq := seq, token := token, path := path } with
      | .error e => (.error e, s)
      | .ok d => (.ok seq, { s with scids := d, nextScidSeq := seq + 1 }.markAdvertise seq advertise)

/-- `new_scid` (cid.rs:378-424). -/
def newScid (s : Ids) (cid : Bytes) (token : Option Nat) (advertise : Bool) (path : Option Nat) (retireIfNeeded : Bool) :
    Except Err Nat × Ids :=
  if s.zeroLenScid then (.error .invalidState, s)
  else if s.scids.inner.length ≥ s.sourceLimit then
    if retireIfNeeded = false then (.error .idLimit, s)
    else
      match s.lowestUsable with
      | .error e => (.error e, s)
      | .ok n => { s with retirePriorTo := n + 1 }.newScidCont cid token advertise path
  else s.newScidCont cid token advertise path

/-- `set_initial_dcid` (cid.rs:427-439). -/
def setInitialDcid (s : Ids) (cid : Bytes) (token : Option Nat) (path : Option Nat) : Ids :=
  { s with zeroLenDcid := cid.isEmpty, dcids := { s.dcids with inner := [{ cid := cid, seq := 0, token := token, path := path }] } }

/-- The set of retired numbers after `retire_prior_to` went through the entries
(cid.rs:519-531), with the first error. -/
def retireAll : List Entry → SeqSet → Option Err → SeqSet × Option Err
  | [], r, err => (r, err)
  | e :: l, r, err =>
    match r.insert e.seq with
    | .error x => retireAll l r (err.or (some x))
    | .ok r => retireAll l r err

/-- The end of `new_dcid` (cid.rs:537-548). -/
def insertDcid (s : Ids) (e : Entry) (err : Option Err) : Except Err Unit × Ids :=
  match s.dcids.insert e with
  | .error x => (.error x, s)
  | .ok d =>
    let s := { s with dcids := d }
    match err with
    | some x => (.error x, s)
    | none => (.ok (), s)

/-- The largest number seen (cid.rs:493-495). -/
def noteSeq (s : Ids) (seq : Nat) : Ids := if seq > s.largestDestSeq then { s with largestDestSeq := seq } else s

/-- `new_dcid` (cid.rs:450-549). The pairs of `retired_path_ids` are the second part of the
result. -/
def newDcid (s : Ids) (cid : Bytes) (seq token retirePriorTo : Nat) : Except Err Unit × List (Nat × Nat) × Ids :=
  if s.zeroLenDcid then (.error .invalidState, [], s)
  else
    match s.dcids.inner.find? (fun e => e.cid == cid || e.seq == seq) with
    | some e =>
      if e.cid ≠ cid ∨ e.seq ≠ seq ∨ e.token ≠ some token then (.error .invalidFrame, [], s) else (.ok (), [], s)
    | none =>
      if retirePriorTo > seq then (.error .invalidFrame, [], s)
      else if seq < s.peerRetirePriorTo then
        let r := s.markRetire seq true
        (r.1, [], r.2)
      else
        let s := s.noteSeq seq
        let new : Entry := { cid := cid, seq := seq, token := some token, path := none }
        if retirePriorTo > s.peerRetirePriorTo then
          if new.seq < retirePriorTo then (.error .outOfIdentifiers, [], s)
          else
            let gone := s.dcids.inner.filter (·.seq < retirePriorTo)
            let ra := retireAll gone s.retire none
            let s := { s with
              dcids := { s.dcids with inner := s.dcids.inner.filter fun e => !decide (e.seq < retirePriorTo) }
              retire := ra.1, peerRetirePriorTo := retirePriorTo }
            let r := s.insertDcid new ra.2
            (r.1, gone.filterMap fun e => e.path.map fun p => (e.seq, p), r.2)
        else
          let r := s.insertDcid new none
          (r.1, [], r.2)

/-- `retire_scid` (cid.rs:564-590). -/
def retireScid (s : Ids) (seq : Nat) (pktDcid : Bytes) : Except Err (Option Nat) × Ids :=
  if seq ≥ s.nextScidSeq then (.error .invalidState, s)
  else
    match s.scids.remove seq with
    | .error e => (.error e, s)
    | .ok (none, d) => (.ok none, { s with scids := d })
    | .ok (some e, d) =>
      let s := { s with scids := d }
      if e.cid = pktDcid then (.error .invalidState, s)
      else
        let s := { s with retiredScids := s.retiredScids ++ [e.cid] }
        match s.lowestUsable with
        | .error x => (.error x, s)
        | .ok n => (.ok e.path, { s with retirePriorTo := n })

/-- `retire_dcid` (cid.rs:604-614). -/
def retireDcid (s : Ids) (seq : Nat) : Except Err (Option Nat) × Ids :=
  if s.zeroLenDcid then (.error .invalidState, s)
  else
    match s.dcids.remove seq with
    | .error e => (.error e, s)
    | .ok (none, d) => (.error .invalidState, { s with dcids := d })
    | .ok (some e, d) =>
      match { s with dcids := d }.markRetire seq true with
      | (.error x, s) => (.error x, s)
      | (.ok _, s) => (.ok e.path, s)

/-- `link_dcid_to_path_id` (cid.rs:633-639). -/
def linkDcid (s : Ids) (seq path : Nat) : Except Err Unit × Ids :=
  match s.dcids.get seq with
  | none => (.error .invalidState, s)
  | some e => (.ok (), { s with dcids := { s.dcids with inner := Deque.put s.dcids.inner { e with path := some path } } })

/-- `link_scid_to_path_id` (cid.rs:623-629). -/
def linkScid (s : Ids) (seq path : Nat) : Except Err Unit × Ids :=
  match s.scids.get seq with
  | none => (.error .invalidState, s)
  | some e => (.ok (), { s with scids := { s.scids with inner := Deque.put s.scids.inner { e with path := some path } } })

end Ids

/-- A NEW_CONNECTION_ID frame. -/
structure NewFrame where
  seq : Nat
  retirePriorTo : Nat
  cid : Bytes
  token : Nat
  deriving DecidableEq, Repr

/-- `get_new_connection_id_frame_for` (cid.rs:811-821). -/
def Ids.frameFor (s : Ids) (seq : Nat) : Except Err NewFrame :=
  match s.scids.get seq with
  | none => .error .invalidState
  | some e =>
    match e.token with
    | none => .error .invalidState
    | some t => .ok { seq := seq, retirePriorTo := s.retirePriorTo, cid := e.cid, token := t }

/-- One round of the loop in `send_single` that packs NEW_CONNECTION_ID frames
(lib.rs:4692-4703) with room for the frame: `none` if there is nothing to send, an error
if no packet can be built. -/
def Ids.sendNew (s : Ids) : Except Err (Option NewFrame) × Ids :=
  match s.advertise.head? with
  | none => (.ok none, s)
  | some seq =>
    match s.frameFor seq with
    | .error e => (.error e, s)
    | .ok f => (.ok (some f), s.markAdvertise seq false)

/-- One round of the loop that packs RETIRE_CONNECTION_ID frames (lib.rs:4947-4967): for
`seq` in the set, unless it is in use on the path (`inUse`). -/
def Ids.sendRetire (s : Ids) (seq : Nat) (inUse : Option Nat) : Option Nat × Ids :=
  if s.retire.inner.contains seq = false then (none, s)
  else if some seq = inUse then (none, s)
  else (some seq, (s.markRetire seq false).2)

end Verif.Cid
