import Verif.H3.Stream
import Verif.Qpack.Model

/-!
Model of the receiving half of an HTTP/3 connection (`/repo/quiche/src/h3/mod.rs`): `poll`,
`recv_body` and what they call. Sending is represented by its effects on the stream table.
Log and qlog output is left out.
-/

namespace Verif.H3
open Verif

/-- `Event` (h3/mod.rs:793-842). -/
inductive Event where
  | headers (list : List Qpack.Header) (more : Bool)
  | data
  | finished
  | reset (code : Nat)
  | priorityUpdate
  | goAway
  deriving DecidableEq, Repr

/-- The result of processing: an event for an identifier, or an error. -/
abbrev Res := Except Err (Nat × Event)

/-- `h3::Connection` (h3/mod.rs:997-1031) together with what it uses of the transport: the
receive sides of streams (those that do not exist are `gone`), `local_error` (the code given to
`close`), whether the transport connection is closed or draining (`dead`), whether the peer
accepts datagrams, `max_streams_bidi`, and `stream_closed`. -/
structure C where
  isServer : Bool
  maxField : Option Nat := some 32768
  maxPrio : Nat := 16384
  streams : Nat → Option Strm := fun _ => none
  peerSettings : Settings := {}
  peerControl : Option Nat := none
  peerEnc : Option Nat := none
  peerDec : Option Nat := none
  encBytes : Nat := 0
  decBytes : Nat := 0
  maxPushId : Nat := 0
  finished : List Nat := []
  peerGoaway : Option Nat := none
  rx : Nat → Rx := fun _ => { gone := true }
  localErr : Option Nat := none
  dead : Bool := false
  dgramOk : Bool := true
  maxStreamsBidi : Nat := 100
  closed : Nat → Bool := fun _ => false

def upd {α : Type} (f : Nat → α) (i : Nat) (a : α) : Nat → α := fun j => if j = i then a else f j

def C.setStrm (c : C) (id : Nat) (s : Strm) : C := { c with streams := upd c.streams id (some s) }
def C.setRx (c : C) (id : Nat) (r : Rx) : C := { c with rx := upd c.rx id r }
def C.put (c : C) (id : Nat) (s : Strm) (r : Rx) : C := (c.setStrm id s).setRx id r
def C.remove (c : C) (id : Nat) : C := { c with streams := upd c.streams id none }

/-- `conn.close(true, code, ..)` (lib.rs:7553-7586): it fails with `Done` if the connection is
closed already. The code given is kept, also if the transport replaces it because the handshake
is not complete. -/
def C.close (c : C) (code : Nat) : Bool × C :=
  if c.dead || c.localErr.isSome then (false, c) else (true, { c with localErr := some code })

/-- `conn.close(..)?; return Err(e)`. -/
def C.closeWith (c : C) (code : Nat) (e : Err) : Err × C :=
  match c.close code with
  | (true, c) => (e, c)
  | (false, c) => (.done, c)

/-- Closing with the code of the error returned. -/
def C.fail (c : C) (e : Err) : Err × C := c.closeWith e.toWire e

/-- `close_conn_critical_stream` (h3/mod.rs:974-984), which always fails. -/
def C.failCritical (c : C) : Err × C := c.fail .closedCriticalStream

/-- The default of `max_field_section_size` (h3/mod.rs:347). -/
abbrev defaultMaxField : Nat := 32768

/-- The stream made on demand (h3/mod.rs:2599-2608 and 3254-3264). -/
def C.fresh (c : C) (id : Nat) : Strm := .new id false (c.maxField.getD defaultMaxField) c.maxPrio

/-- `streams.entry(id).or_insert_with(..)`. -/
def C.ensure (c : C) (id : Nat) : C :=
  match c.streams id with
  | some _ => c
  | none => c.setStrm id (c.fresh id)

/-- What an iteration of `process_readable_stream` ends with. -/
inductive Step where
  | ret (r : Res)
  | again
  deriving DecidableEq, Repr

def stepFailed (x : Err × C) : Step × C := (.ret (.error x.1), x.2)

/-- `conn.close(..)?; return Err(e)` in `process_frame`. -/
def resFailed (x : Err × C) : Res × C := (.error x.1, x.2)

/-- `Frame::Settings` in `process_frame` (h3/mod.rs:3047-3082). -/
def C.onSettings (c : C) (s : Settings) : Res × C :=
  let c := { c with peerSettings := { s with grease := none } }
  if s.h3Datagram = some 1 && !c.dgramOk then resFailed (c.fail .settingsError)
  else (.error .done, c)

/-- The counter of HEADERS frames (h3/mod.rs:3086-3098). `none`: too many. -/
def C.countHeaders (c : C) (id : Nat) : Option C :=
  match c.streams id with
  | none => some c
  | some s =>
    if c.isServer && s.headersReceived == 2 then none
    else some (c.setStrm id { s with headersReceived := s.headersReceived + 1 })

/-- The error for a block that is not decoded (h3/mod.rs:3114-3120). -/
def qpackErr : Qpack.Err → Err
  | .headerListTooLarge => .excessiveLoad
  | .panic => .panic
  | _ => .qpackDecompressionFailed

/-- `Frame::Headers` in `process_frame` (h3/mod.rs:3084-3158). -/
def C.onHeaders (c : C) (id : Nat) (block : Bytes) : Res × C :=
  match c.countHeaders id with
  | none => resFailed (c.fail .frameUnexpected)
  | some c =>
    match Qpack.decode block (c.maxField.getD (2 ^ 64 - 1)) with
    | .ok hs => (.ok (id, .headers hs (!(c.rx id).finished)), c)
    | .error e => resFailed (c.fail (qpackErr e))

/-- `Frame::GoAway` in `process_frame` (h3/mod.rs:3164-3190). -/
def C.onGoAway (c : C) (g : Nat) : Res × C :=
  if !c.isServer && g % 4 != 0 then resFailed (c.closeWith (Err.toWire .frameUnexpected) .idError)
  else
    match c.peerGoaway with
    | some p =>
      if g > p then resFailed (c.fail .idError)
      else (.ok (g, .goAway), { c with peerGoaway := some g })
    | none => (.ok (g, .goAway), { c with peerGoaway := some g })

/-- `Frame::MaxPushId` in `process_frame` (h3/mod.rs:3192-3214). -/
def C.onMaxPushId (c : C) (p : Nat) : Res × C :=
  if !c.isServer then resFailed (c.fail .frameUnexpected)
  else if p < c.maxPushId then resFailed (c.fail .idError)
  else (.error .done, { c with maxPushId := p })

/-- `Frame::PushPromise` in `process_frame` (h3/mod.rs:3216-3238). -/
def C.onPushPromise (c : C) (id : Nat) : Res × C :=
  if c.isServer then resFailed (c.fail .frameUnexpected)
  else if id % 4 != 0 then resFailed (c.fail .frameUnexpected)
  else (.error .done, c)

/-- Storing a priority (h3/mod.rs:3252-3277). -/
def C.storePrio (c : C) (el : Nat) (v : Bytes) : Res × C :=
  let s := (c.streams el).getD (c.fresh el)
  if s.lastPrio.isNone then
    (.ok (el, .priorityUpdate), c.setStrm el { s with lastPrio := some v })
  else (.error .done, c.setStrm el { s with lastPrio := some v })

/-- `Frame::PriorityUpdateRequest` in `process_frame` (h3/mod.rs:3244-3300). -/
def C.onPrioRequest (c : C) (el : Nat) (v : Bytes) : Res × C :=
  if !c.isServer then resFailed (c.fail .frameUnexpected)
  else if el % 4 != 0 then resFailed (c.fail .frameUnexpected)
  else if el > c.maxStreamsBidi * 4 then resFailed (c.fail .idError)
  else if c.closed el then (.error .done, c)
  else c.storePrio el v

/-- `Frame::PriorityUpdatePush` in `process_frame` (h3/mod.rs:3302-3328). -/
def C.onPrioPush (c : C) (el : Nat) : Res × C :=
  if !c.isServer then resFailed (c.fail .frameUnexpected)
  else if el % 3 != 0 then resFailed (c.fail .frameUnexpected)
  else (.error .done, c)

/-- `process_frame` (h3/mod.rs:3020-3335). -/
def C.processFrame (c : C) (id : Nat) : Frame → Res × C
  | .settings s => c.onSettings s
  | .headers b => c.onHeaders id b
  | .data _ => (.error .done, c)
  | .goAway g => c.onGoAway g
  | .maxPushId p => c.onMaxPushId p
  | .pushPromise _ _ => c.onPushPromise id
  | .cancelPush _ => (.error .done, c)
  | .prioRequest el v => c.onPrioRequest el v
  | .prioPush el _ => c.onPrioPush el
  | .unknown _ _ => (.error .done, c)

/-- Reading for a state: `stream.try_fill_buffer(conn)?` and `stream.try_skip_frame(conn)?`. -/
def C.filled (c : C) (id : Nat) (x : Fill × Strm × Rx) (k : Strm → C → Step × C) : Step × C :=
  match x with
  | (.ok, s, r) => k s (c.put id s r)
  | (.err e, s, r) => (.ret (.error e), c.put id s r)
  | (.closedCritical, s, r) => stepFailed (c.put id s r).failCritical

/-- `try_consume_varint`, and `continue` on errors. -/
def C.varint (c : C) (id : Nat) (s : Strm) (k : Nat → Strm → C → Step × C) : Step × C :=
  match s.tryVarint with
  | (none, s) => (.again, c.setStrm id s)
  | (some v, s) => k v s (c.setStrm id s)

/-- `if let Err(e) = .. { conn.close(..)?; return Err(e) }`. -/
def C.applied (c : C) (id : Nat) (x : Except Err Unit × Strm) (k : C → Step × C) : Step × C :=
  match x with
  | (.error e, s) => stepFailed ((c.setStrm id s).fail e)
  | (.ok (), s) => k (c.setStrm id s)

/-- The peer opens a critical stream (h3/mod.rs:2644-2716). -/
def C.openCritical (c : C) (id : Nat) (old : Option Nat) (set : C → C) : Step × C :=
  if old.isSome then stepFailed (c.fail .streamCreationError)
  else if (c.rx id).finished then stepFailed c.failCritical
  else (.again, set c)

/-- The `match &ty` (h3/mod.rs:2643-2727). -/
def C.openPeer (c : C) (id : Nat) : Ty → Step × C
  | .control => c.openCritical id c.peerControl (fun c => { c with peerControl := some id })
  | .push => stepFailed (c.fail .streamCreationError)
  | .qpackEncoder => c.openCritical id c.peerEnc (fun c => { c with peerEnc := some id })
  | .qpackDecoder => c.openCritical id c.peerDec (fun c => { c with peerDec := some id })
  | .unknown => (.again, c)
  | .request => (.ret (.error .panic), c)

/-- The counters of the bytes of QPACK streams (h3/mod.rs:2871-2879). -/
def C.countQpack (c : C) (s : Strm) (n : Nat) : C :=
  if s.ty = some .qpackEncoder then { c with encBytes := c.encBytes + n }
  else { c with decBytes := c.decBytes + n }

/-- The loop of `State::QpackInstruction` (h3/mod.rs:2864-2885); every iteration but the last
reads something. -/
def C.qpackLoop (id : Nat) (s : Strm) : Nat → C → Step × C
  | 0, c => (.ret (.error .panic), c)
  | k + 1, c =>
    match (c.rx id).recv 4096 with
    | (.error e, r) => (.ret (.error e), c.setRx id r)
    | (.ok (bs, fin), r) =>
      if fin then stepFailed ((c.setRx id r).countQpack s bs.length).failCritical
      else C.qpackLoop id s k ((c.setRx id r).countQpack s bs.length)

/-- After a frame without event (h3/mod.rs:2840-2852): do not read on a finished stream. -/
def C.afterFrame (id : Nat) (x : Res × C) : Step × C :=
  match x with
  | (.error .done, c) =>
    if (c.rx id).finished then (.ret (.error .done), c) else (.again, c)
  | (r, c) => (.ret r, c)

/-- An iteration of `process_readable_stream` (h3/mod.rs:2614-2935). -/
def C.iter (spare : Nat → Nat → Nat) (polling : Bool) (id : Nat) (c : C) : Step × C :=
  match c.streams id with
  | none => (.ret (.error .done), c)
  | some s =>
    match s.state with
    | .streamType =>
      c.filled id (s.tryFill spare (c.rx id)) fun s c => c.varint id s fun v s c =>
        c.applied id (s.setTy (.deserialize v)) fun c => c.openPeer id (.deserialize v)
    | .pushId =>
      c.filled id (s.tryFill spare (c.rx id)) fun s c => c.varint id s fun _ s c =>
        c.applied id s.setPushId fun c => (.again, c)
    | .frameType =>
      c.filled id (s.tryFill spare (c.rx id)) fun s c => c.varint id s fun v s c =>
        c.applied id (s.setFrameType v) fun c => (.again, c)
    | .framePayloadLen =>
      c.filled id (s.tryFill spare (c.rx id)) fun s c => c.varint id s fun v s c =>
        c.applied id (s.setFramePayloadLen v) fun c => (.again, c)
    | .framePayload =>
      if !polling then (.ret (.error .done), c)
      else
        c.filled id (s.tryFill spare (c.rx id)) fun s c =>
          match s.tryFrame with
          | (.error e, s) => stepFailed ((c.setStrm id s).fail e)
          | (.ok f, s) => C.afterFrame id ((c.setStrm id s).processFrame id f)
    | .data =>
      if !polling then (.ret (.error .done), c)
      else if s.dataTriggered then (.ret (.error .done), c)
      else (.ret (.ok (id, .data)), c.setStrm id { s with dataTriggered := true })
    | .qpackInstruction => C.qpackLoop id s ((c.rx id).avail.length + 2) c
    | .skipFramePayload =>
      c.filled id (s.trySkipFrame (c.rx id)) fun _ c =>
        if (c.rx id).finished then (.ret (.error .done), c) else (.again, c)
    | .drain =>
      match (c.rx id).shutdown with
      | (.error e, r) => (.ret (.error e), c.setRx id r)
      | (.ok (), r) => (.ret (.error .done), c.setRx id r)
    | .finished => (.ret (.error .done), c)

/-- The loop. -/
def C.loop (spare : Nat → Nat → Nat) (polling : Bool) (id : Nat) : Nat → C → Res × C
  | 0, c => (.error .panic, c)
  | k + 1, c =>
    match c.iter spare polling id with
    | (.ret r, c) => (r, c)
    | (.again, c) => C.loop spare polling id k c

/-- More iterations than there can be; see `processStream_no_panic`. -/
def C.fuel (c : C) (id : Nat) : Nat := 4 * (c.rx id).avail.length + 8

/-- `process_readable_stream` (h3/mod.rs:2596-2938). -/
def C.processStream (spare : Nat → Nat → Nat) (polling : Bool) (id : Nat) (c : C) : Res × C :=
  C.loop spare polling id ((c.ensure id).fuel id) (c.ensure id)

/-- `process_finished_stream` (h3/mod.rs:2940-2966). -/
def C.processFinished (c : C) (id : Nat) : C :=
  match c.streams id with
  | none => c
  | some s =>
    if s.state = .finished then c
    else
      match s.ty with
      | some .request | some .push =>
        { c.setStrm id s.finish with finished := c.finished ++ [id] }
      | some .unknown | none => c.remove id
      | some .control | some .qpackEncoder | some .qpackDecoder => c

/-- `if conn.stream_finished(id) { self.process_finished_stream(id) }`. -/
def C.finishIf (c : C) (id : Nat) : C := if (c.rx id).finished then c.processFinished id else c

/-- `remove_local_finished_stream` (h3/mod.rs:2992-2998). -/
def C.removeLocalFinished (c : C) (id : Nat) : C :=
  match c.streams id with
  | some s => if s.localFinished then c.remove id else c
  | none => c

/-- The event for a stream taken from the list (h3/mod.rs:3005-3017). -/
def C.finishedEvent (c : C) (id : Nat) : Event × C :=
  if (c.rx id).readable then
    match (c.rx id).recv 0 with
    | (.error (.streamReset e), r) => (.reset e, c.setRx id r)
    | (_, r) => (.finished, c.setRx id r)
  else (.finished, c)

/-- `pop_finished_stream` (h3/mod.rs:3000-3018). -/
def C.popFinished (c : C) : Option (Nat × Event) × C :=
  match c.finished with
  | [] => (none, c)
  | id :: l =>
    match ({ c with finished := l }.removeLocalFinished id).finishedEvent id with
    | (ev, c) => (some (id, ev), c)

/-- `process_control_stream` (h3/mod.rs:2574-2594). -/
def C.processControl (spare : Nat → Nat → Nat) (c : C) (id : Nat) : Res × C :=
  if (c.rx id).finished then resFailed c.failCritical
  else if !(c.rx id).readable then (.error .done, c)
  else
    match c.processStream spare true id with
    | (.error .done, c) =>
      if (c.rx id).finished then resFailed c.failCritical else (.error .done, c)
    | x => x

/-- One of the three blocks of `poll` for control streams (h3/mod.rs:2122-2152). -/
def C.control (spare : Nat → Nat → Nat) (sel : C → Option Nat) (k : C → Res × C) (c : C) :
    Res × C :=
  match sel c with
  | none => k c
  | some id =>
    match c.processControl spare id with
    | (.error .done, c) => k c
    | x => x

/-- Popping, and going on if there is nothing (h3/mod.rs:2155-2157 and 2191-2193). -/
def C.popOr (k : C → Res × C) (c : C) : Res × C :=
  match c.popFinished with
  | (some ev, c) => (.ok ev, c)
  | (none, c) => k c

/-- The loop over readable streams (h3/mod.rs:2160-2186). -/
def C.readLoop (spare : Nat → Nat → Nat) (k : C → Res × C) : List Nat → C → Res × C
  | [], c => k c
  | id :: l, c =>
    match c.processStream spare true id with
    | (.ok ev, c) => (.ok ev, c.finishIf id)
    | (.error .done, c) => C.readLoop spare k l (c.finishIf id)
    | (.error (.streamReset e), c) => (.ok (id, .reset e), c.removeLocalFinished id)
    | (.error e, c) => (.error e, c)

/-- `poll` (h3/mod.rs:2112-2196). `rs` are the identifiers of `conn.readable()`; the iterator is
a copy of the list at the time the loop is entered. -/
def C.poll (spare : Nat → Nat → Nat) (rs : List Nat) (c : C) : Res × C :=
  if c.localErr.isSome then (.error .done, c)
  else
    C.control spare (·.peerControl) (C.control spare (·.peerEnc) (C.control spare (·.peerDec)
      (C.popOr (C.readLoop spare (C.popOr fun c => (.error .done, c)) rs)))) c

/-- The result of `recv_body_buf`: the number returned, or an error, and the bytes written to the
buffer, which there may be also in the case of an error. -/
abbrev BodyRes := Except Err Nat × Bytes

/-- The end of `recv_body_buf` (h3/mod.rs:1935-1945). -/
def C.bodyEnd (c : C) (id : Nat) (got : Bytes) : BodyRes × C :=
  ((if got.isEmpty then .error .done else .ok got.length, got), c.finishIf id)

/-- The loop of `recv_body_buf` (h3/mod.rs:1895-1933) with room for `n` more bytes; every
iteration but the last reads something. `got` has been read. -/
def C.bodyLoop (spare : Nat → Nat → Nat) (id : Nat) : Nat → Nat → Bytes → C → BodyRes × C
  | 0, _, got, c => ((.error .panic, got), c)
  | k + 1, n, got, c =>
    if n = 0 then c.bodyEnd id got
    else
      match c.streams id with
      | none => ((.error .done, got), c)
      | some s =>
        if s.state ≠ .data then c.bodyEnd id got
        else
          match s.tryData (c.rx id) n with
          | (.error .done, s, r) => (c.put id s r).bodyEnd id got
          | (.error e, s, r) => ((.error e, got), c.put id s r)
          | (.ok (bs, fin), s, r) =>
            if bs.isEmpty || fin then (c.put id s r).bodyEnd id (got ++ bs)
            else
              match (c.put id s r).processStream spare false id with
              | (.ok _, c) => ((.error .panic, got ++ bs), c)
              | (.error .done, c) =>
                if (c.rx id).finished then c.bodyEnd id (got ++ bs)
                else C.bodyLoop spare id k (n - bs.length) (got ++ bs) c
              | (.error e, c) => ((.error e, got ++ bs), c)

/-- `recv_body` with a buffer of `n` bytes (h3/mod.rs:1835-1946). -/
def C.recvBody (spare : Nat → Nat → Nat) (id n : Nat) (c : C) : BodyRes × C :=
  C.bodyLoop spare id ((c.rx id).avail.length + 2) n [] c

end Verif.H3
