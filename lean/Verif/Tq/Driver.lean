import Verif.Octets.Model

/-!
Model of what the HTTP/3 driver of tokio-quiche does for one stream
(`/repo/tokio-quiche/src/http3/driver/mod.rs`, `streams.rs`). The application holds the other ends
of two bounded channels: it puts frames for the peer into one (`OutboundFrame`) and takes what the
peer sent from the other (`InboundFrame`). The driver and the application run in different tasks;
one step of the model is one iteration of a loop of the driver or one action of the application, in
any order. What `quiche` answers is not fixed here: it is part of the step.
-/

namespace Verif.Tq.Drv
open Verif

/-- `OutboundFrame` (mod.rs:306-319) without those of flows. -/
inductive OF where
  | headers (h : Bytes)
  | body (b : Bytes) (fin : Bool)
  | trailers (h : Bytes)
  /-- `PeerStreamError` -/
  | err
  deriving DecidableEq, Repr

/-- `InboundFrame::Body` (mod.rs:325-330). -/
structure IF where
  b : Bytes
  fin : Bool
  deriving DecidableEq, Repr

/-- What `quiche` accepted for the stream. `first` tells `send_response_with_priority` from
`send_additional_headers_with_priority`. -/
inductive WI where
  | headers (h : Bytes) (first : Bool)
  | byte (b : UInt8)
  | trailers (h : Bytes)
  | fin
  deriving DecidableEq, Repr

/-- Where the end of a channel is: in the context of the stream, in a future of `waiting_streams`,
or dropped (or closed). -/
inductive Place where
  | here
  | waiting
  | gone
  deriving DecidableEq, Repr

/-- What the driver is doing for the stream. -/
inductive Pc where
  | idle
  /-- about to call `process_write_frame` in `process_writable_stream` -/
  | wframe
  /-- about to look at the channel there -/
  | wnext
  /-- in the loop of `process_h3_data` -/
  | read
  deriving DecidableEq, Repr

/-- `StreamCtx` (streams.rs:46-70), the two channels and a record of what happened. -/
structure S where
  /-- in `stream_map` -/
  live : Bool := true
  pc : Pc := .idle
  send : Place := .here
  recv : Place := .here
  queued : Option OF := none
  initial : Bool := false
  finRecv : Bool := false
  finSent : Bool := false
  /-- `associated_dgram_flow_id` is there -/
  flow : Bool := false
  /-- capacity of the channels -/
  cap : Nat := 1
  /-- the channel to the driver; whether the application still has a sender -/
  outq : List OF := []
  outOpen : Bool := true
  /-- the channel to the application; whether it still has the receiver -/
  inq : List IF := []
  inOpen : Bool := true
  /-- what the application has put in and taken out -/
  given : List OF := []
  taken : List IF := []
  /-- what `quiche` accepted and gave -/
  wire : List WI := []
  got : List Bytes := []
  /-- STOP_SENDING and RESET_STREAM with the code for cancelled requests, asked for by the driver -/
  stopped : Bool := false
  cancelled : Bool := false
  /-- those of `shutdown_stream` -/
  shutR : Bool := false
  shutW : Bool := false
  /-- `quiche` said that the stream is finished, or reset -/
  ended : Bool := false
  wasReset : Bool := false
  /-- the last answer of `quiche` to a write was that there is no room -/
  blocked : Bool := false
  /-- the connection is closed with an error -/
  fatal : Bool := false
  /-- the stream was announced to the application a second time -/
  again : Bool := false
  deriving DecidableEq, Repr

/-- An answer to a write. -/
inductive WOut where
  /-- so many bytes of a body; headers as a whole -/
  | ok (n : Nat)
  | blocked
  | stopped
  | other
  deriving DecidableEq, Repr

/-- An answer to `recv_body_buf`. -/
inductive ROut where
  | data (b : Bytes)
  | done
  | reset
  | other
  deriving DecidableEq, Repr

inductive Op where
  -- the application
  | push (f : OF)
  | dropOut
  | take
  | dropIn
  -- events
  /-- `quiche` says that the stream is writable -/
  | writable
  /-- the future waiting for a frame of the application -/
  | recvReady
  /-- the future waiting for room in the channel to the application -/
  | sendReady
  | data
  | fin
  | reset
  /-- HEADERS -/
  | headers
  /-- `H3Command::ShutdownStream` -/
  | shutdown (read write : Bool)
  -- the driver goes on
  | wframe (o : WOut)
  | wnext
  /-- what `recv_body_buf`, `stream_readable` and `stream_finished` say -/
  | read (o : ROut) (readable finished : Bool)
  deriving DecidableEq, Repr

namespace S

/-- `cleanup_stream` (mod.rs:1037-1078). -/
def cleanup (s : S) : S := { s with live := false, pc := .idle, send := .gone, recv := .gone, queued := none }

/-- `both_directions_done` (streams.rs:162-164). -/
def both (s : S) : Bool := s.finRecv && s.finSent

/-- `cleanup_stream` if both directions are done. -/
def cleanupIf (s : S) : S := if s.both then s.cleanup else { s with pc := .idle }

/-- `shutdown_stream` (mod.rs:1104-1154). -/
def shutdown (s : S) (r w : Bool) : S :=
  { s with shutR := s.shutR || r, shutW := s.shutW || w }.cleanup

/-- `on_fin_sent` (mod.rs:910-922), and how `process_writable_stream` goes on (mod.rs:1213-1250). -/
def onFinSent (s : S) : S :=
  let s := { s with recv := .gone, finSent := true }
  if s.finRecv then s.cleanup else { s with queued := none, pc := .wnext }

/-- The answers that are the same for all frames (mod.rs:1215-1250). `InvalidStreamState` is like
other errors, as the stream it names is this one. -/
def refused (s : S) : WOut → S
  | .ok _ => s
  | .blocked => { s with pc := .idle, blocked := true }
  | .stopped =>
    -- `handle_recvd_stop_sending` (streams.rs:107-131)
    if s.finSent then s.cleanupIf else { s with finSent := true, queued := none, recv := .gone }.cleanupIf
  | .other => s.cleanup

/-- `process_write_frame` (mod.rs:800-908) and the match on its result (mod.rs:1213-1250). -/
def wframe (s : S) (o : WOut) : S :=
  match s.queued with
  | none => { s with pc := .wnext }
  | some (.headers h) =>
    match o with
    | .ok _ => { s with wire := s.wire ++ [.headers h (!s.initial)], initial := true, queued := none, pc := .wnext }
    | o => s.refused o
  | some (.body b fin) =>
    if b = [] ∧ fin = false then { s with queued := none, pc := .wnext }
    else
      let s := if fin then { s with recv := .gone } else s
      match o with
      | .ok n =>
        let m := min n b.length
        let s := { s with wire := s.wire ++ (b.take m).map WI.byte, queued := some (.body (b.drop m) fin) }
        if m ≠ b.length then { s with pc := .idle, blocked := true }
        else if fin then ({ s with wire := s.wire ++ [WI.fin] } : S).onFinSent
        else { s with queued := none, pc := .wnext }
      | o => s.refused o
  | some (.trailers h) =>
    match o with
    | .ok _ => ({ s with wire := s.wire ++ [WI.trailers h, WI.fin] } : S).onFinSent
    | o => s.refused o
  | some .err => s.shutdown true true

/-- The rest of an iteration of `process_writable_stream` (mod.rs:1252-1303). -/
def wnext (s : S) : S :=
  match s.recv with
  | .here =>
    match s.outq with
    | f :: l => { s with queued := some f, outq := l, pc := .wframe }
    | [] =>
      if s.outOpen then { s with recv := .waiting, pc := .idle }
      else if !s.finSent && !s.flow then { s with cancelled := true, finSent := true }.cleanupIf
      else { s with pc := .idle }
  | _ => { s with pc := .idle }

/-- `handle_recvd_reset` and what follows (streams.rs:133-142, mod.rs:660-668, 732-759). -/
def gotReset (s : S) : S := { s with finRecv := true, send := .gone, wasReset := true }.cleanupIf

/-- `process_h3_fin` (mod.rs:681-707) up to its call of `process_h3_data`. -/
def gotFin (s : S) : S :=
  if s.live && !s.finRecv then { s with finRecv := true, ended := true, pc := .read } else { s with pc := .idle }

/-- The end of `process_h3_data` when it does not close the stream (mod.rs:640-656). -/
def readDone (s : S) (finished : Bool) : S :=
  if !s.finRecv && finished then s.gotFin else { s with pc := .idle }

/-- An iteration of the loop of `process_h3_data` (mod.rs:503-677). -/
def read (s : S) (o : ROut) (readable finished : Bool) : S :=
  if s.send ≠ .here then s.readDone finished
  else if s.inOpen = false then
    let s := if !s.finRecv && !s.flow then { s with stopped := true, finRecv := true, send := .gone } else s
    if s.both then s.cleanup else s.readDone finished
  else if s.inq.length ≥ s.cap then
    if s.finRecv || readable then { s with send := .waiting, pc := .idle } else s.readDone finished
  else if s.finRecv then
    let s := { s with inq := s.inq ++ [(⟨[], true⟩ : IF)] }
    if s.finSent then s.cleanup else { s with pc := .idle }
  else
    match o with
    | .data b => { s with got := s.got ++ [b], inq := s.inq ++ [⟨b, false⟩] }
    | .done => s.readDone finished
    | .reset => s.gotReset
    | .other => s.cleanup

/-- One step. `none`: it cannot happen now. -/
def step (s : S) : Op → Option S
  | .push f =>
    if s.outOpen ∧ s.recv ≠ .gone ∧ s.outq.length < s.cap then some { s with outq := s.outq ++ [f], given := s.given ++ [f] } else none
  | .dropOut => some { s with outOpen := false }
  | .take =>
    if s.inOpen then
      match s.inq with
      | f :: l => some { s with inq := l, taken := s.taken ++ [f] }
      | [] => none
    else none
  | .dropIn => some { s with inOpen := false }
  | .writable => if s.pc = .idle then some (if s.live then { s with pc := .wframe, blocked := false } else s) else none
  -- `upstream_read_ready` (mod.rs:947-966)
  | .recvReady =>
    if s.pc = .idle ∧ s.recv = .waiting then
      match s.outq with
      | f :: l => some { s with recv := .here, queued := some f, outq := l, pc := .wframe }
      | [] => if s.outOpen then none else some { s with recv := .here, queued := none, pc := .wframe }
    else none
  -- `upstream_write_ready` (mod.rs:968-985)
  | .sendReady =>
    if s.pc = .idle ∧ s.send = .waiting ∧ (s.inq.length < s.cap ∨ s.inOpen = false) then some { s with send := .here, pc := .read } else none
  -- after the end of the stream, after RESET_STREAM and after STOP_SENDING `quiche` says nothing of data (or headers)
  | .data => if s.pc = .idle ∧ s.ended = false ∧ s.wasReset = false ∧ s.stopped = false ∧ s.shutR = false then some (if s.live then { s with pc := .read } else { s with fatal := true }) else none
  | .fin => if s.pc = .idle then some s.gotFin else none
  | .reset => if s.pc = .idle then some (if s.live then s.gotReset else s) else none
  -- `handle_request` (server.rs:190-192)
  | .headers => if s.pc = .idle ∧ s.ended = false ∧ s.wasReset = false ∧ s.stopped = false ∧ s.shutR = false then some (if s.live then s else { s with again := true }) else none
  | .shutdown r w => if s.pc = .idle then some (if s.live then s.shutdown r w else s) else none
  | .wframe o => if s.pc = .wframe then some (s.wframe o) else none
  | .wnext => if s.pc = .wnext then some s.wnext else none
  | .read o r f => if s.pc = .read then some (s.read o r f) else none

def run (s : S) : List Op → Option S
  | [] => some s
  | op :: l => (s.step op).bind fun s => s.run l

/-- A new stream: at a server `handle_request` (server.rs:194-229), at a client `initiate_request`
(client.rs:216-249) with and without a body. -/
def server (cap : Nat) (flow : Bool) : S := { cap, flow, recv := .waiting }
def client (cap : Nat) (flow body : Bool) : S := { cap, flow, recv := if body then .waiting else .gone, finSent := !body }

end S
end Verif.Tq.Drv
