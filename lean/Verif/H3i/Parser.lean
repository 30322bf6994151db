import Verif.H3.Frame
import Verif.Qpack.Model

/-!
The parser of h3i, which reads HTTP/3 frames from a stream as it comes:
`/repo/h3i/src/frame_parser.rs`.

The stream is what `stream_recv` shows of it (`Src`): bytes which can be read, whether its end is
known, whether it was reset.
-/

namespace Verif.H3i
open Verif

/-- A stream, for its reader. The end (`fin`) is behind the bytes which can be read. -/
structure Src where
  avail : Bytes := []
  fin : Bool := false
  /-- a read has said that the end is reached -/
  told : Bool := false
  reset : Option Nat := none
  deriving DecidableEq, Repr

inductive Got where
  | data (b : Bytes) (fin : Bool)
  /-- `Done`, or `InvalidStreamState` of a stream that is gone -/
  | done
  | reset (e : Nat)
  deriving DecidableEq, Repr

/-- `stream_recv` (quiche/src/lib.rs:5767-5860) with a buffer of `n` bytes. -/
def Src.recv (s : Src) (n : Nat) : Src × Got :=
  match s.reset with
  | some e => ({ s with reset := none, avail := [], told := true }, .reset e)
  | none =>
    if s.avail = [] ∧ (s.fin = false ∨ s.told = true) then (s, .done)
    else
      let fin := s.fin && decide (s.avail.length ≤ n)
      ({ s with avail := s.avail.drop n, told := s.told || fin }, .data (s.avail.take n) fin)

/-- `stream_finished` (quiche/src/lib.rs:6540-6548). -/
def Src.finished (s : Src) : Bool := s.fin && decide (s.avail = [])

/-- `FrameState` (frame_parser.rs:39-45). -/
inductive Mode where
  | type
  | len
  | val
  deriving DecidableEq, Repr

/-- `FrameParser` (frame_parser.rs:78-88, 306-318). -/
structure P where
  ty : Option Nat := none
  len : Option Nat := none
  mode : Mode := .type
  buf : Bytes := [0]
  off : Nat := 0
  slen : Nat := 1
  deriving DecidableEq, Repr

/-- What `try_parse_frame` answers. -/
inductive Out where
  | retry
  | frame (ty : Nat) (payload : Bytes) (fin : Bool)
  | interruptedFin
  | interruptedReset (e : Nat)
  | done
  | excessive
  /-- another error of `Frame::from_bytes` -/
  | bad
  | panic
  deriving DecidableEq, Repr

/-- `MAX_STREAM_STATE_SIZE` (frame_parser.rs:37). -/
abbrev maxState : Nat := 2000000

/-- `Vec::resize` with zeros. -/
def resize (b : Bytes) (n : Nat) : Bytes := b.take n ++ List.replicate (n - b.length) 0

/-- `state_buffer_complete` (frame_parser.rs:239-241). -/
def P.complete (p : P) : Bool := decide (p.off = p.slen)

/-- `frame_incomplete` (frame_parser.rs:204-206). -/
def P.incomplete (p : P) : Bool := !p.buf.isEmpty && !p.complete

/-- `try_fill_buffer` (frame_parser.rs:208-223). -/
def P.fill (p : P) (s : Src) : P × Src × Got :=
  if p.complete then (p, s, .data [] s.finished)
  else
    match s.recv (p.slen - p.off) with
    | (s, .data b fin) =>
      ({ p with buf := p.buf.take p.off ++ b ++ p.buf.drop (p.off + b.length), off := p.off + b.length },
        s, .data b fin)
    | (s, g) => (p, s, g)

/-- `try_consume_varint` (frame_parser.rs:225-237). -/
def P.varint (p : P) : P × Option Nat :=
  let p := if p.off = 1 then
      { p with slen := varintParseLen (p.buf.headD 0), buf := resize p.buf (varintParseLen (p.buf.headD 0)) }
    else p
  if p.complete then
    match decVarint p.buf with
    | .ok (v, _) => (p, some v)
    | .error _ => (p, none)
  else (p, none)

/-- `state_transition` (frame_parser.rs:243-259); `none` is `ExcessiveLoad`. -/
def P.transition (p : P) (m : Mode) (n : Nat) : Option P :=
  if n > maxState then none
  else some { p with buf := resize p.buf n, mode := m, off := 0, slen := n }

/-- `build_h3i_frame` (frame_parser.rs:275-292). -/
def build (ty len : Nat) (buf : Bytes) : Option Out :=
  match H3.fromBytes ty len buf with
  | .error .panic => some .panic
  | .error _ => some .bad
  | .ok (.headers b) =>
    match Qpack.decode b (2 ^ 64 - 1) with
    | .ok _ => none
    | .error _ => some .panic
  | .ok _ => none

/-- One round of the loop (frame_parser.rs:121-201); `none`: once more. -/
def P.once (p : P) (s : Src) : P × Src × Option Out :=
  match p.fill s with
  | (p, s, .reset e) => (p, s, some (.interruptedReset e))
  | (p, s, .done) => (p, s, some .done)
  | (p, s, .data _ fin) =>
    if fin && p.incomplete then (p, s, some .interruptedFin)
    else
      match p.mode with
      | .type =>
        match p.varint with
        | (p, none) => (p, s, some .retry)
        | (p, some v) =>
          match ({ p with ty := some v } : P).transition .len 1 with
          | some p => (p, s, none)
          | none => ({ p with ty := some v }, s, some .excessive)
      | .len =>
        match p.varint with
        | (p, none) => (p, s, some .retry)
        | (p, some v) =>
          match ({ p with len := some v } : P).transition .val v with
          | some p => (p, s, none)
          | none => ({ p with len := some v }, s, some .excessive)
      | .val =>
        if p.complete then
          match p.ty, p.len with
          | some ty, some len =>
            match build ty len p.buf with
            | some o => (p, s, some o)
            | none => ({ }, s, some (.frame ty p.buf fin))
          | _, _ => (p, s, some .panic)
        else (p, s, some .done)

/-- `try_parse_frame` (frame_parser.rs:118-202). The loop passes through the modes once
(`Props/C177`), so three rounds are enough; a fourth would be `panic`. -/
def P.tryParse (p : P) (s : Src) : P × Src × Out :=
  match p.once s with
  | (p, s, some o) => (p, s, o)
  | (p, s, none) =>
    match p.once s with
    | (p, s, some o) => (p, s, o)
    | (p, s, none) =>
      match p.once s with
      | (p, s, some o) => (p, s, o)
      | (p, s, none) => (p, s, .panic)

/-- A reader and its stream. `over`: the caller has been told to stop. -/
structure St where
  p : P := { }
  s : Src := { }
  over : Bool := false
  log : List Out := []
  deriving DecidableEq, Repr

inductive Op where
  /-- bytes become readable, perhaps with the end of the stream -/
  | data (b : Bytes) (fin : Bool)
  | reset (e : Nat)
  | call
  deriving DecidableEq, Repr

/-- Whether the caller goes on (client/mod.rs:381-469). -/
def Out.stops : Out → Bool
  | .frame _ _ fin => fin
  | .interruptedFin => true
  | .interruptedReset _ => true
  | .panic => true
  | _ => false

def St.step (t : St) : Op → St
  | .data b fin =>
    if t.s.fin then t else { t with s := { t.s with avail := t.s.avail ++ b, fin := fin } }
  | .reset e => if t.s.told then t else { t with s := { t.s with reset := some e } }
  | .call =>
    if t.over then t
    else
      let (p, s, o) := t.p.tryParse t.s
      { p := p, s := s, over := o.stops, log := t.log ++ [o] }

def St.run : St → List Op → St
  | t, [] => t
  | t, o :: ops => (t.step o).run ops

end Verif.H3i
