import Verif.H3.Config
import Verif.H3.Conn
import Verif.H3.Message
import Verif.H3.Write
import Verif.Qpack.Section

/-!
Model of sending over HTTP/3 (`/repo/quiche/src/h3/mod.rs`), and of the send side of the transport
streams below it, as far as HTTP/3 sees it.
-/

namespace Verif.H3.Send
open Verif Verif.H3

/-! ### The transport stream -/

/-- The send side of a transport stream. `out` are the bytes accepted for sending. `fin`: the end
was accepted. `shut`: the application has reset the stream (`stream_shutdown`). `cap` is what
`stream_capacity` returns, the minimum of the limits of the stream and the connection. `stopped`:
the peer has sent STOP_SENDING. `gone`: the stream has been collected. -/
structure Tx where
  out : Bytes := []
  fin : Bool := false
  shut : Bool := false
  cap : Nat := 0
  stopped : Bool := false
  gone : Bool := false
  deriving DecidableEq, Repr

/-- Nothing can be written any more. -/
def Tx.sealed (t : Tx) : Bool := t.fin || t.shut || t.stopped || t.gone

/-- `stream_capacity` (lib.rs:6330-6355). -/
def Tx.capacity (t : Tx) : Except Err Nat :=
  if t.stopped || t.gone then .error .transport else .ok t.cap

/-- `stream_send` (lib.rs:5910-6147, stream/send_buf.rs:145-210), for a stream that exists or has
been collected. When there is no capacity on a stream that has ended, `Done` is returned, where
the code may also return `FinalSize`. -/
def Tx.write (t : Tx) (bs : Bytes) (fin : Bool) : Except Err Nat × Tx :=
  if t.gone then (.error .done, t)
  else if t.stopped then (.error .transport, t)
  else if t.cap = 0 ∧ bs ≠ [] then (.error .done, t)
  else if (t.fin || t.shut) ∧ (bs ≠ [] ∨ fin = false) then (.error .transport, t)
  else
    (.ok (min bs.length t.cap),
      { t with
        out := t.out ++ bs.take t.cap
        cap := t.cap - min bs.length t.cap
        fin := t.fin || (!t.shut && fin && decide (bs.length ≤ t.cap)) })

/-! ### The connection -/

/-- What sending uses of an entry of `streams` (h3/stream.rs:128-190). -/
structure Ent where
  localInit : Bool := false
  trailersSent : Bool := false
  localFinished : Bool := false
  deriving DecidableEq, Repr

/-- `h3::Connection` (h3/mod.rs:997-1031) for sending, with the send sides of streams; `rxFin` is
`stream_finished`. `grease` is the setting of the transport. -/
structure S where
  isServer : Bool
  grease : Bool := true
  greased : Bool := false
  nextReq : Nat := 0
  ent : Nat → Option Ent := fun _ => none
  tx : Nat → Option Tx := fun _ => none
  rxFin : Nat → Bool := fun _ => false
  peerGoaway : Bool := false
  localGoaway : Option Nat := none
  control : Option Nat := none

def S.setTx (s : S) (id : Nat) (t : Tx) : S := { s with tx := upd s.tx id (some t) }
def S.setEnt (s : S) (id : Nat) (e : Option Ent) : S := { s with ent := upd s.ent id e }

abbrev R (α : Type) := Except Err α × S

/-- `?`. -/
def bnd {α β : Type} (x : R α) (k : α → S → R β) : R β :=
  match x with
  | (.ok a, s) => k a s
  | (.error e, s) => (.error e, s)

/-- `stream_capacity`; the stream must exist. -/
def S.capacity (s : S) (id : Nat) : Except Err Nat :=
  match s.tx id with
  | none => .error .transport
  | some t => t.capacity

/-- `stream_send` on a stream that has been made before. -/
def S.write (s : S) (id : Nat) (bs : Bytes) (fin : Bool) : R Nat :=
  match s.tx id with
  | none => (.error .transport, s)
  | some t =>
    match t.write bs fin with
    | (r, t) => (r, s.setTx id t)

/-- `if conn.stream_finished(id) { self.streams.remove(id) }` in error paths. -/
def S.forgetIf (s : S) (id : Nat) : S := if s.rxFin id then s.setEnt id none else s

/-- `finish_local_stream` (h3/mod.rs:2968-2990). -/
def S.finishLocal (s : S) (id : Nat) (init : Bool) : S :=
  match s.ent id with
  | none => s
  | some e =>
    if s.rxFin id then s.setEnt id none
    else s.setEnt id (some { e with localInit := e.localInit || init, localFinished := true })

/-- The text of the second frame (h3/mod.rs:2373). -/
def greaseText : Bytes := [71, 82, 69, 65, 83, 69, 32, 105, 115, 32, 116, 104, 101, 32, 119, 111, 114, 100]

/-- `send_grease_frames` (h3/mod.rs:2355-2449) for two values. -/
def S.sendGrease (s : S) (id g1 g2 : Nat) : R Unit :=
  match s.capacity id with
  | .error e => (.error e, s.forgetIf id)
  | .ok cap =>
    if cap < (Io.enc g1).length + 1 + (Io.enc g2).length + 1 + greaseText.length then (.ok (), s)
    else
      bnd (s.write id (Io.enc g1) false) fun _ s => bnd (s.write id (Io.enc 0) false) fun _ s =>
      bnd (s.write id (Io.enc g2) false) fun _ s => bnd (s.write id (Io.enc 18) false) fun _ s =>
      bnd (s.write id greaseText false) fun _ s => (.ok (), s)

/-- Lengths of slices are less than this; for others the model panics. -/
abbrev lenBound : Nat := 2 ^ 62

/-- `encode_header_block` (h3/mod.rs:1463-1479). -/
def encodeBlock (hs : List Qpack.Header) : Except Err Bytes :=
  if hs.any (fun h => decide (lenBound ≤ h.1.length) || decide (lenBound ≤ h.2.length)) then .error .panic
  else
    match Qpack.encode hs ⟨List.replicate (hs.map (fun h => h.2.length + h.1.length + 32)).sum 0, 0⟩ with
    | (.error _, _) => .error .internalError
    | (.ok (), b) => if lenBound ≤ b.off then .error .panic else .ok (b.buf.take b.off)

/-- The random values are drawn below the bound (h3/mod.rs:3363-3366). -/
def draw (n : Nat) : Nat := greaseValue (n % greaseBound)

/-- The beginning of `send_headers` (h3/mod.rs:1488-1491). -/
def S.greaseOnce (s : S) (id : Nat) (g : Nat × Nat) : R Unit :=
  if !s.greased && s.grease then
    bnd (s.sendGrease id (draw g.1) (draw g.2)) fun _ s => (.ok (), { s with greased := true })
  else (.ok (), s)

/-- The end of `send_headers` (h3/mod.rs:1554-1558). -/
def S.headersSent (s : S) (id : Nat) (fin : Bool) : S :=
  if fin then s.finishLocal id true
  else
    match s.ent id with
    | none => s
    | some e => s.setEnt id (some { e with localInit := true })

/-- The middle of `send_headers` (h3/mod.rs:1493-1522). -/
def S.sendBlock (s : S) (id : Nat) (block : Bytes) (fin : Bool) : R Unit :=
  match s.capacity id with
  | .error e => (.error e, s.forgetIf id)
  | .ok cap =>
    if cap < (Io.enc 1).length + (Io.enc block.length).length + block.length then
      (.error .streamBlocked, s)
    else
      bnd (s.write id (Io.enc 1 ++ Io.enc block.length) false) fun _ s =>
      bnd (s.write id block fin) fun _ s => (.ok (), s.headersSent id fin)

/-- `send_headers` (h3/mod.rs:1481-1562). -/
def S.sendHeaders (s : S) (id : Nat) (hs : List Qpack.Header) (fin : Bool) (g : Nat × Nat) : R Unit :=
  bnd (s.greaseOnce id g) fun _ s =>
    match encodeBlock hs with
    | .error e => (.error e, s)
    | .ok block => s.sendBlock id block fin

/-- Making the transport stream by writing nothing (h3/mod.rs:1187-1195). `room` is the capacity of
a new stream; none: no more streams can be opened. -/
def S.openReq (s : S) (id : Nat) (room : Option Nat) : R Unit :=
  match s.tx id with
  | none =>
    match room with
    | none => (.error .transport, s)
    | some n => (.ok (), s.setTx id { cap := n })
  | some _ => bnd (s.write id [] false) fun _ s => (.ok (), s)

/-- The error of `openReq` (h3/mod.rs:1190-1194). -/
def openErr : Err → Err
  | .done => .streamBlocked
  | e => e

/-- `send_request` (h3/mod.rs:1160-1218). -/
def S.sendRequest (s : S) (hs : List Qpack.Header) (fin : Bool) (room : Option Nat) (g : Nat × Nat) : R Nat :=
  if s.peerGoaway then (.error .frameUnexpected, s)
  else
    match (s.setEnt s.nextReq (some {})).openReq s.nextReq room with
    | (.error e, s1) => (.error (openErr e), s1.setEnt s.nextReq none)
    | (.ok (), s1) =>
      match s1.sendHeaders s.nextReq hs fin g with
      | (.error .streamBlocked, s2) => (.error .streamBlocked, s2.setEnt s.nextReq none)
      | (.error e, s2) => (.error e, s2)
      | (.ok (), s2) => (.ok s.nextReq, { s2 with nextReq := s2.nextReq + 4 })

/-- `send_response` and `send_response_with_priority` (h3/mod.rs:1257-1340); the priority of a
stream that exists can be set. -/
def S.sendResponse (s : S) (id : Nat) (hs : List Qpack.Header) (fin : Bool) (g : Nat × Nat) : R Unit :=
  match s.ent id with
  | none => (.error .frameUnexpected, s)
  | some e =>
    if e.localInit then (.error .frameUnexpected, s) else s.sendHeaders id hs fin g

/-- `mark_trailers_sent` (h3/mod.rs:1399-1405). -/
def S.markTrailers (s : S) (id : Nat) : S :=
  match s.ent id with
  | none => s
  | some e => s.setEnt id (some { e with trailersSent := true })

/-- `send_additional_headers` (h3/mod.rs:1369-1410), also with priority (1440-1461). -/
def S.sendAdditional (s : S) (id : Nat) (hs : List Qpack.Header) (trailer fin : Bool) (g : Nat × Nat) : R Unit :=
  if !s.isServer && !trailer then (.error .frameUnexpected, s)
  else
    match s.ent id with
    | none => (.error .frameUnexpected, s)
    | some e =>
      if !e.localInit then (.error .frameUnexpected, s)
      else if e.trailersSent then (.error .frameUnexpected, s)
      else
        bnd (s.sendHeaders id hs fin g) fun _ s => (.ok (), if trailer then s.markTrailers id else s)

/-- Writing a DATA frame (h3/mod.rs:1762-1803) with `n` bytes of `body`. -/
def S.sendData (s : S) (id : Nat) (body : Bytes) (n : Nat) (fin : Bool) : R Nat :=
  bnd (s.write id (Io.enc 0 ++ Io.enc n) false) fun _ s =>
  bnd (s.write id (body.take n) fin) fun written s =>
    if written ≠ n then (.error .internalError, s)
    else if fin && written == body.length then (.ok written, s.finishLocal id false)
    else (.ok written, s)

/-- `send_body` (h3/mod.rs:1578-1805). `send_body_zc` differs only in how memory is used. -/
def S.sendBody (s : S) (id : Nat) (body : Bytes) (fin : Bool) : R Nat :=
  if lenBound ≤ body.length then (.error .panic, s)
  else if id % 4 ≠ 0 then (.error .frameUnexpected, s)
  else
    match s.ent id with
    | none => (.error .frameUnexpected, s)
    | some e =>
      if !e.localInit then (.error .frameUnexpected, s)
      else if e.trailersSent then (.error .frameUnexpected, s)
      else if body.length = 0 ∧ fin = false then (.error .done, s)
      else
        match s.capacity id with
        | .error e => (.error e, s.forgetIf id)
        | .ok cap =>
          let over := (Io.enc 0).length + (Io.enc body.length).length
          if cap < over then (.error .done, s)
          else
            let n := min body.length (cap - over)
            let fin := if n ≠ body.length then false else fin
            if n = 0 ∧ fin = false then (.error .done, s)
            else s.sendData id body n fin

/-- `send_goaway` (h3/mod.rs:2209-2264). `toBytes` of GOAWAY writes type, length and identifier; it
panics for identifiers that are not integers of the format. -/
def S.sendGoaway (s : S) (id : Nat) : R Unit :=
  let id := if s.isServer then id else 0
  if s.isServer && id % 4 != 0 then (.error .idError, s)
  else if s.localGoaway.any (fun g => decide (g < id)) then (.error .idError, s)
  else
    match s.control with
    | none => (.ok (), s)
    | some c =>
      match toBytes (.goAway id) ⟨List.replicate 10 42, 0⟩ with
      | (.error e, _) => (.error e, s)
      | (.ok (), b) =>
        match s.capacity c with
        | .error e => (.error e, s)
        | .ok cap =>
          if cap < b.off then (.error .streamBlocked, s)
          else bnd (s.write c (b.buf.take b.off) false) fun _ s => (.ok (), { s with localGoaway := some id })

/-! ### Executions -/

/-- Calls of the application, and what else may happen between them. -/
inductive Act where
  | request (hs : List Qpack.Header) (fin : Bool) (room : Option Nat) (g : Nat × Nat)
  | response (id : Nat) (hs : List Qpack.Header) (fin : Bool) (g : Nat × Nat)
  | additional (id : Nat) (hs : List Qpack.Header) (trailer fin : Bool) (g : Nat × Nat)
  | body (id : Nat) (bs : Bytes) (fin : Bool)
  | goaway (id : Nat)
  /-- the peer has opened a bidirectional stream -/
  | opened (id cap : Nat)
  /-- receiving has made an entry for a stream that has none, and from which data can come
  (h3/mod.rs:2599-2608, 3254-3264) -/
  | entry (id : Nat)
  /-- receiving removes the entry of a stream that is finished (h3/mod.rs:2992-2998) -/
  | dropped (id : Nat)
  /-- the capacity changes -/
  | capacity (id n : Nat)
  | stopped (id : Nat)
  | shutdown (id : Nat)
  | collected (id : Nat)
  /-- the peer's end of the stream was read, or the stream was collected -/
  | rxFinished (id : Nat)
  | peerGoaway
  deriving DecidableEq, Repr

/-- The sender, and what it was told by successful calls: for each stream the content that was
accepted, and whether the end was; and the identifiers of GOAWAY. -/
structure X where
  s : S
  log : Nat → List Out := fun _ => []
  ended : Nat → Bool := fun _ => false
  goaways : List Nat := []

def X.note (x : X) (s : S) (id : Nat) (out : List Out) (fin : Bool) : X :=
  { x with s := s, log := upd x.log id (x.log id ++ out), ended := upd x.ended id (x.ended id || fin) }

def headersOut (hs : List Qpack.Header) : List Out := [.headers (hs.map Qpack.lowered)]

/-- Changing the send side of a stream. -/
def X.modTx (x : X) (id : Nat) (f : Tx → Tx) : X :=
  match x.s.tx id with
  | none => x
  | some t => { x with s := x.s.setTx id (f t) }

def X.step (x : X) : Act → X
  | .request hs fin room g =>
    match x.s.sendRequest hs fin room g with
    | (.ok id, s) => x.note s id (headersOut hs) fin
    | (.error _, s) => { x with s := s }
  | .response id hs fin g =>
    match x.s.sendResponse id hs fin g with
    | (.ok (), s) => x.note s id (headersOut hs) fin
    | (.error _, s) => { x with s := s }
  | .additional id hs trailer fin g =>
    match x.s.sendAdditional id hs trailer fin g with
    | (.ok (), s) => x.note s id (headersOut hs) fin
    | (.error _, s) => { x with s := s }
  | .body id bs fin =>
    match x.s.sendBody id bs fin with
    | (.ok n, s) => x.note s id ((bs.take n).map .byte) (fin && n == bs.length)
    | (.error _, s) => { x with s := s }
  | .goaway id =>
    match x.s.sendGoaway id with
    | (.ok (), s) => { x with s := s, goaways := x.goaways ++ (if x.s.control.isSome then [if x.s.isServer then id else 0] else []) }
    | (.error _, s) => { x with s := s }
  | .opened id cap =>
    match x.s.tx id with
    | some _ => x
    | none =>
      if isBidi id && (id % 2 == 1) != x.s.isServer then { x with s := x.s.setTx id { cap := cap } } else x
  | .entry id =>
    match x.s.ent id with
    | some _ => x
    | none => if isBidi id || (id % 2 == 1) != x.s.isServer then { x with s := x.s.setEnt id (some {}) } else x
  | .dropped id =>
    match x.s.ent id with
    | some e => if e.localFinished then { x with s := x.s.setEnt id none } else x
    | none => x
  | .capacity id n => x.modTx id fun t => { t with cap := n }
  | .stopped id => x.modTx id fun t => { t with stopped := true }
  | .shutdown id => x.modTx id fun t => { t with shut := true }
  | .collected id => x.modTx id fun t => { t with gone := true }
  | .rxFinished id => { x with s := { x.s with rxFin := upd x.s.rxFin id true } }
  | .peerGoaway => { x with s := { x.s with peerGoaway := true } }

def X.run (x : X) (l : List Act) : X := l.foldl X.step x

/-- Before anything was sent but for what `with_transport` sends: the control stream, if any, is
one of this endpoint's, with its type and SETTINGS on it, which is left open here (C99). -/
structure X.Initial (x : X) : Prop where
  ent : ∀ id, x.s.ent id = none
  tx : ∀ id, isBidi id → x.s.tx id = none
  next : x.s.nextReq = 0
  log : ∀ id, x.log id = []
  ended : ∀ id, x.ended id = false
  goaways : x.goaways = []
  local' : x.s.localGoaway = none
  control : ∀ c, x.s.control = some c → isBidi c = false
  own : ∀ c, x.s.control = some c → (c % 2 == 1) = x.s.isServer

end Verif.H3.Send
