/-!
Model of the per-stream trackers of qlog-dancer (`/repo/qlog-dancer/src/trackers/`), of the
events that feed them (`datastore.rs`) and of the report about MAX_DATA (`reports/text.rs`).
Times are only stored; they are numbers here. `none` stands for an overflow or another panic.
A map is a function here; `keys` are the streams with an entry in `per_stream`.
-/

namespace Verif.Dancer

/-- The common part of `StreamMaxTracker` (trackers/stream_max_tracker.rs:29-45) and
`StreamBufferTracker` (trackers/stream_buffer_tracker.rs:31-47); `α` is what is kept per event. -/
structure Tracker (α : Type) where
  keys : List Nat
  per : Nat → List (Nat × α)
  flat : Nat → Option Nat
  series : List (Nat × Nat)
  sum : Nat

/-- `default`. -/
def Tracker.empty {α : Type} : Tracker α := ⟨[], fun _ => [], fun _ => none, [], 0⟩

/-- A map with one value replaced (`insert`). -/
def put {β : Type} (f : Nat → β) (k : Nat) (v : β) : Nat → β := fun x => if x = k then v else f x

/-- `entry` of `per_stream`: the key is there afterwards. -/
def addKey (l : List Nat) (s : Nat) : List Nat := if s ∈ l then l else s :: l

/-- The common part of `update` (stream_max_tracker.rs:63-77, stream_buffer_tracker.rs:66-79). -/
def Tracker.raise {α : Type} (t : Tracker α) (s value time : Nat) : Option (Tracker α × Option (Nat × Nat)) :=
  let old := (t.flat s).getD 0
  let new := max old value
  if new > old then
    if t.sum + (new - old) ≥ 2 ^ 64 then none
    else some ({ t with flat := put t.flat s (some new), sum := t.sum + (new - old), series := t.series ++ [(time, t.sum + (new - old))] }, some (old, new))
  else some ({ t with series := t.series ++ [(time, t.sum)] }, none)

/-- `StreamMaxTracker::update` (stream_max_tracker.rs:53-80). -/
def Tracker.updateMax (t : Tracker Nat) (s value time init : Nat) : Option (Tracker Nat × Option (Nat × Nat)) :=
  let entry := if s ∈ t.keys then t.per s else [(0, init)]
  Tracker.raise { t with keys := addKey t.keys s, per := put t.per s (entry ++ [(time, value)]) } s value time

/-- `StreamBufferTracker::update` (stream_buffer_tracker.rs:56-82). -/
def Tracker.updateBuf (t : Tracker (Nat × Nat)) (s offset length time : Nat) : Option (Tracker (Nat × Nat) × Option (Nat × Nat)) :=
  if offset + length ≥ 2 ^ 64 then none
  else Tracker.raise { t with keys := addKey t.keys s, per := put t.per s (t.per s ++ [(time, offset, length)]) } s (offset + length) time

/-- `DataRecipient` (/repo/qlog/src/events/mod.rs:414-420). -/
inductive Recipient where
  | user | application | transport | network | dropped
deriving DecidableEq, Repr

/-- The events. `params` is `ParametersSet` with its initiator; `limit` and `streamLimit` are MAX_DATA
and MAX_STREAM_DATA, sent or received; `moved` is `StreamDataMoved`. -/
inductive Ev where
  | params (loc : Bool) (maxData bidiLocal bidiRemote uni : Option Nat)
  | limit (rx : Bool) (maximum time : Nat)
  | streamLimit (rx : Bool) (stream maximum time : Nat)
  | moved (to : Option Recipient) (stream offset length : Option Nat) (time : Nat)

/-- The fields of `Datastore` for them (datastore.rs:287-309 and 339-343). -/
structure Store where
  rxMax : List (Nat × Nat)
  txMax : List (Nat × Nat)
  rxStream : Tracker Nat
  txStream : Tracker Nat
  reads : Tracker (Nat × Nat)
  writes : Tracker (Nat × Nat)
  drops : Tracker (Nat × Nat)
  localBidi : Nat
  localUni : Nat
  peerBidi : Nat
  peerUni : Nat

def Store.empty : Store := ⟨[], [], .empty, .empty, .empty, .empty, .empty, 0, 0, 0, 0⟩

/-- `is_bidi` (datastore.rs:376-378). -/
def isBidi (s : Nat) : Bool := s / 2 % 2 == 0

/-- `consume_qlog_transport_parameters_set` (datastore.rs:1178-1222), the MAX_DATA and
MAX_STREAM_DATA parts of the packets (1252-1266, 1351-1365) and
`consume_qlog_stream_data_moved` (1417-1444). -/
def Store.step (d : Store) : Ev → Option Store
  | .params true m bl _ u =>
    some { d with
      txMax := match m with | some m => d.txMax ++ [(0, m)] | none => d.txMax
      localBidi := bl.getD d.localBidi
      localUni := u.getD d.localUni }
  | .params false m _ br u =>
    some { d with
      rxMax := match m with | some m => d.rxMax ++ [(0, m)] | none => d.rxMax
      peerBidi := br.getD d.peerBidi
      peerUni := u.getD d.peerUni }
  | .limit true m time => some { d with rxMax := d.rxMax ++ [(time, m)] }
  | .limit false m time => some { d with txMax := d.txMax ++ [(time, m)] }
  | .streamLimit true s m time =>
    match d.rxStream.updateMax s m time (if isBidi s then d.peerBidi else d.peerUni) with
    | some (t, _) => some { d with rxStream := t }
    | none => none
  | .streamLimit false s m time =>
    match d.txStream.updateMax s m time (if isBidi s then d.localBidi else d.localUni) with
    | some (t, _) => some { d with txStream := t }
    | none => none
  | .moved none _ _ _ _ => some d
  | .moved (some .user) _ _ _ _ => none
  | .moved (some .network) _ _ _ _ => none
  | .moved (some .application) s o l time =>
    match s, o, l with
    | some s, some o, some l =>
      match d.reads.updateBuf s o l time with
      | some (t, _) => some { d with reads := t }
      | none => none
    | _, _, _ => some d
  | .moved (some .transport) s o l time =>
    match s, o, l with
    | some s, some o, some l =>
      match d.writes.updateBuf s o l time with
      | some (t, _) => some { d with writes := t }
      | none => none
    | _, _, _ => some d
  | .moved (some .dropped) s o l time =>
    match s, o, l with
    | some s, some o, some l =>
      match d.drops.updateBuf s o l time with
      | some (t, _) => some { d with drops := t }
      | none => none
    | _, _, _ => some d

/-- A log. -/
def Store.run (d : Store) : List Ev → Option Store
  | [] => some d
  | e :: l =>
    match d.step e with
    | some d => d.run l
    | none => none

/-- What the report says: nothing, or the first and the last. -/
inductive Said where
  | nothing
  | firstLast (first last : Nat × Nat)
deriving DecidableEq

/-- `print_rx_max_data_frames` (reports/text.rs:146-161); `none` is the panic of `unwrap`. -/
def Store.reportRx (d : Store) : Option Said :=
  if d.rxStream.keys.isEmpty then some .nothing
  else
    match d.rxMax.head?, d.rxMax.getLast? with
    | some a, some b => some (.firstLast a b)
    | _, _ => none

/-- `print_tx_max_data_frames` (reports/text.rs:163-171). -/
def Store.reportTx (d : Store) : Option (Nat × (Nat × Nat) × (Nat × Nat)) :=
  match d.txMax.head?, d.txMax.getLast? with
  | some a, some b => some (d.txMax.length, a, b)
  | _, _ => none

end Verif.Dancer
