import Verif.H3.Conn
import Verif.H3.Message

/-!
Executions of an HTTP/3 connection: arrivals from the transport and calls of the application in
any order. The transport connection stays alive.
-/

namespace Verif.H3
open Verif

/-- A connection, the streams that have existed, and what the application has got from each. -/
structure W where
  c : C
  used : Nat → Bool := fun _ => false
  log : Nat → List Out := fun _ => []

inductive Act where
  /-- the peer opens a stream -/
  | opened (id : Nat)
  /-- bytes arrive, in order, and perhaps the end of the stream -/
  | arrive (id : Nat) (bs : Bytes) (fin : Bool)
  /-- the peer resets its stream -/
  | reset (id code : Nat)
  /-- everything sent on the stream is acknowledged -/
  | sent (id : Nat)
  /-- `send_request` succeeds -/
  | request (id : Nat)
  /-- the application finishes or resets its half of the stream -/
  | finishLocal (id : Nat)
  /-- `take_last_priority_update` -/
  | takePrio (id : Nat)
  /-- `poll`; the list is what the transport reports readable, of the streams that exist -/
  | poll (spare : Nat → Nat → Nat) (rs : List Nat)
  /-- `recv_body` -/
  | body (spare : Nat → Nat → Nat) (id n : Nat)

/-- Arrival of STREAM frames (stream/recv_buf.rs, `write`), of bytes next in order. Nothing comes
after the end or after a reset. -/
def Rx.arrive (r : Rx) (bs : Bytes) (fin : Bool) : Rx :=
  if r.gone || r.fin then r
  else if r.drain then
    { r with all := r.all ++ bs, off := (r.all ++ bs).length, fin := fin }
  else
    { r with
      all := r.all ++ bs
      fin := fin
      marker := fin && bs.isEmpty && r.off == r.all.length }

/-- Arrival of RESET_STREAM (stream/recv_buf.rs:295-335), with the right final size. The buffer
that makes the stream readable is not queued if the final size was known (recv_buf.rs:116-118). -/
def Rx.reset (r : Rx) (code : Nat) : Rx :=
  if r.gone || r.err.isSome then r
  else { r with off := r.all.length, fin := true, err := some code, marker := !r.drain && !r.fin }

/-- All sent data is acknowledged: a complete stream that is not readable is collected
(lib.rs:3652-3658). -/
def Rx.sent (r : Rx) : Rx :=
  if r.gone then r
  else { r with sendDone := true, gone := r.finished && !r.readable }

/-- The identifiers of streams opened by the peer. -/
def C.peerStream (c : C) (id : Nat) : Bool := (id % 2 == 1) != c.isServer

/-- `finish_local_stream` (h3/mod.rs:2968-2990). -/
def C.finishLocal (c : C) (id : Nat) : C :=
  match c.streams id with
  | none => c
  | some s =>
    if (c.rx id).finished then c.remove id
    else c.setStrm id { s with localInit := true, localFinished := true }

/-- The effects of `send_request` (h3/mod.rs:1160-1218) on the receive side. -/
def C.request (c : C) (id : Nat) : C :=
  c.put id { Strm.new id true (c.maxField.getD defaultMaxField) c.maxPrio with localInit := true } {}

/-- `take_last_priority_update` (h3/mod.rs:2065-2073). -/
def C.takePrio (c : C) (id : Nat) : C :=
  match c.streams id with
  | none => c
  | some s => c.setStrm id { s with lastPrio := none }

def addLog (log : Nat → List Out) (id : Nat) (o : List Out) : Nat → List Out :=
  upd log id (log id ++ o)

/-- What an event gives to the application. -/
def logRes (log : Nat → List Out) : Res → Nat → List Out
  | .ok (id, .headers hs _) => addLog log id [.headers hs]
  | _ => log

/-- One action; actions that are not possible change nothing. -/
def W.step (w : W) : Act → W
  | .opened id =>
    if !w.used id && w.c.peerStream id then
      { w with c := w.c.setRx id { sendDone := !isBidi id }, used := upd w.used id true }
    else w
  | .arrive id bs fin =>
    if w.used id then { w with c := w.c.setRx id ((w.c.rx id).arrive bs fin) } else w
  | .reset id code =>
    if w.used id then { w with c := w.c.setRx id ((w.c.rx id).reset code) } else w
  | .sent id =>
    if w.used id then { w with c := w.c.setRx id (w.c.rx id).sent } else w
  | .request id =>
    if !w.used id && !w.c.isServer && id % 4 == 0 then
      { w with c := w.c.request id, used := upd w.used id true }
    else w
  | .finishLocal id => if w.used id then { w with c := w.c.finishLocal id } else w
  | .takePrio id => { w with c := w.c.takePrio id }
  | .poll spare rs =>
    { w with
      c := (w.c.poll spare (rs.filter w.used)).2
      log := logRes w.log (w.c.poll spare (rs.filter w.used)).1 }
  | .body spare id n =>
    if w.used id then
      { w with
        c := (w.c.recvBody spare id n).2
        log := addLog w.log id ((w.c.recvBody spare id n).1.2.map .byte) }
    else w

def W.run (w : W) (l : List Act) : W := l.foldl W.step w

/-- A new connection. -/
def C.Initial (c : C) : Prop :=
  (∀ id, c.streams id = none) ∧ (∀ id, c.rx id = { gone := true }) ∧ c.peerControl = none ∧
    c.peerEnc = none ∧ c.peerDec = none ∧ c.finished = [] ∧ c.localErr = none ∧ c.dead = false ∧
    c.peerGoaway = none ∧ c.maxPushId = 0

def W.Initial (w : W) : Prop := w.c.Initial ∧ (∀ id, w.used id = false) ∧ ∀ id, w.log id = []

end Verif.H3
