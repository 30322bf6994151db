import Verif.Octets.Model

/-!
Model of the qlog streamer and of the reader of its files (`/repo/qlog/src/streamer.rs`,
`/repo/qlog/src/reader.rs`). JSON is a parameter: how a header and an event are written, and
what reading bytes as one of them gives. A writer may fail within any call, after any number of
bytes; the next call may find it working again. Times and compression are left out.
-/

namespace Verif.Qlog
open Verif

/-- The record separator of JSON text sequences (RFC 7464), the byte written at streamer.rs:154
and 366 and looked for at reader.rs:166. -/
abbrev sep : UInt8 := 0x1E

/-- A line feed, which ends each record (streamer.rs:157, 374). -/
abbrev lf : UInt8 := 10

/-- `EventImportance` (events/mod.rs:156-162). -/
inductive Importance
  | core | base | extra
  deriving DecidableEq, Repr

/-- `is_contained_in` (events/mod.rs:166-179). -/
def Importance.isContainedIn : Importance → Importance → Bool
  | .core, .core => true
  | .core, .base => true
  | .base, .base => true
  | .core, .extra => true
  | .base, .extra => true
  | .extra, .extra => true
  | _, _ => false

/-- What serde does: writing an event, plainly or pretty-printed, and a header; reading them,
where an event is tried as `Event` and then as `JsonEvent` (reader.rs:186-198). -/
structure Json (H E : Type) where
  ser : Bool → E → Bytes
  de : Bytes → Option E
  serHeader : H → Bytes
  deHeader : Bytes → Option H
  importance : E → Importance

/-- `StreamerState` (streamer.rs:86-90). -/
inductive State
  | initial | ready | finished
  deriving DecidableEq, Repr

/-- What the calls return: nothing, `Done`, `InvalidState`, or an error of the writer. -/
inductive Res
  | ok | done | invalid | io
  deriving DecidableEq, Repr

/-- `write_all` to a file that takes `room` more bytes in this call, or any number. -/
def put (room : Option Nat) (file b : Bytes) : Option Nat × Bytes × Bool :=
  match room with
  | none => (none, file ++ b, true)
  | some r => if b.length ≤ r then (some (r - b.length), file ++ b, true) else (some 0, file ++ b.take r, false)

/-- The three writes of a record (streamer.rs:154-157, 366-374). -/
def writeRecord (room : Option Nat) (file body : Bytes) : Bytes × Res :=
  match put room file [sep] with
  | (_, f, false) => (f, .io)
  | (room, f, true) =>
    match put room f body with
    | (_, f, false) => (f, .done)
    | (room, f, true) =>
      match put room f [lf] with
      | (_, f, false) => (f, .io)
      | (_, f, true) => (f, .ok)

/-- The parts of `QlogStreamer` that matter here, and what its writer has taken. -/
structure Log (H : Type) where
  header : H
  level : Importance
  state : State := .initial
  file : Bytes := []
  deriving DecidableEq, Repr

variable {H E : Type}

/-- `start_log` (streamer.rs:149-162). -/
def Log.start (j : Json H E) (l : Log H) (room : Option Nat) : Log H × Res :=
  if l.state ≠ .initial then (l, .done)
  else
    match writeRecord room l.file (j.serHeader l.header) with
    | (f, .ok) => ({ l with file := f, state := .ready }, .ok)
    | (f, r) => ({ l with file := f }, r)

/-- `finish_log` (streamer.rs:167-179); `flushed` says whether the writer could flush. -/
def Log.finish (l : Log H) (flushed : Bool) : Log H × Res :=
  if l.state = .initial ∨ l.state = .finished then (l, .invalid)
  else ({ l with state := .finished }, if flushed then .ok else .io)

/-- `write_event` (streamer.rs:355-377), which all ways of adding an event end in; they make the
same checks before (streamer.rs:221-227, 313-320). -/
def Log.event (j : Json H E) (l : Log H) (e : E) (pretty : Bool) (room : Option Nat) : Log H × Res :=
  if l.state ≠ .ready then (l, .invalid)
  else if (j.importance e).isContainedIn l.level = false then (l, .done)
  else
    match writeRecord room l.file (j.ser pretty e) with
    | (f, r) => ({ l with file := f }, r)

/-- A call of the application. -/
inductive Call (E : Type)
  | start (room : Option Nat)
  | event (e : E) (pretty : Bool) (room : Option Nat)
  | finish (flushed : Bool)
  deriving DecidableEq, Repr

/-- One call. -/
def Log.step (j : Json H E) (l : Log H) : Call E → Log H × Res
  | .start room => l.start j room
  | .event e pretty room => l.event j e pretty room
  | .finish flushed => l.finish flushed

/-- The log after some calls. -/
def Log.run (j : Json H E) (l : Log H) (cs : List (Call E)) : Log H := cs.foldl (fun l c => (l.step j c).1) l

/-- `read_until` (std): everything up to the separator and with it, and what follows. -/
def readUntil : Bytes → Bytes × Bytes
  | [] => ([], [])
  | b :: bs => if b = sep then ([b], bs) else ((b :: (readUntil bs).1), (readUntil bs).2)

/-- `read_record` (reader.rs:162-174). -/
def readRecord (bs : Bytes) : Option Bytes × Bytes :=
  let (buf, rest) := readUntil bs
  if buf.length ≤ 1 then (none, rest) else (some (buf.take (buf.length - 1)), rest)

/-- The events a loop over the reader gets (`next`, reader.rs:181-203), until the first `None`;
`fuel` bounds the number of records. -/
def eventsFuel (de : Bytes → Option E) : Nat → Bytes → List E
  | 0, _ => []
  | fuel + 1, bs =>
    match readRecord bs with
    | (none, _) => []
    | (some b, rest) => (de b).toList ++ eventsFuel de fuel rest

/-- The events of a reader that stands before `bs`. -/
def events (de : Bytes → Option E) (bs : Bytes) : List E := eventsFuel de (bs.length + 1) bs

/-- `QlogSeqReader::new` (reader.rs:57-75) and a loop over the reader: the header and the
events, or nothing if there is no header. -/
def readLog (j : Json H E) (file : Bytes) : Option (H × List E) :=
  match readRecord (readRecord file).2 with
  | (none, _) => none
  | (some b, rest) => (j.deHeader b).map (fun h => (h, events j.de rest))

end Verif.Qlog
