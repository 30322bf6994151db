import Verif.Ranges.Model
import Verif.Stream.RangeBuf

/-!
Model of `/repo/quiche/src/stream/send_buf.rs`: the send half of a stream.
`u64`/`usize` values are `Nat`; subtractions that would underflow and failed
assertions are `QErr.panic`. `emit` returns the bytes it copies into the output
slice, which is represented by its length.
-/

namespace Verif
namespace Stream
open Ranges

/-- `SEND_BUFFER_SIZE` (send_buf.rs:44). -/
abbrev sendBufferSize : Nat := 4096

/-- `usize::MAX`, the capacity of `RangeSet::default()` (ranges.rs:347-354). -/
abbrev usizeMax : Nat := 2 ^ 64 - 1

/-- `SendBuf` (send_buf.rs:92-133). -/
structure SendBuf where
  data : List RangeBuf
  pos : Nat
  off : Nat
  emitOff : Nat
  bufferedBytes : Nat
  maxData : Nat
  blockedAt : Option Nat
  finOff : Option Nat
  shutdown : Bool
  acked : RangeSet
  error : Option Nat
  deriving DecidableEq, Repr

namespace SendBuf

/-- `SendBuf::new` (send_buf.rs:137-142). -/
def new (maxData : Nat) : SendBuf :=
  { data := [], pos := 0, off := 0, emitOff := 0, bufferedBytes := 0, maxData,
    blockedAt := none, finOff := none, shutdown := false, acked := .new usizeMax, error := none }

/-- `SendBuf::ack_off` (send_buf.rs:551-559). -/
def ackOff (s : SendBuf) : Nat :=
  match s.acked.ranges.head? with
  | some (0, e) => e
  | _ => 0

/-- `SendBuf::cap` (send_buf.rs:562-569). -/
def cap (s : SendBuf) : Except QErr Nat :=
  match s.error with
  | some e => .error (.streamStopped e)
  | none => if s.off ≤ s.maxData then .ok (s.maxData - s.off) else .error .panic

/-- `SendBuf::reserve_for_write` (send_buf.rs:145-187): the buffer with the final
offset recorded, the number of bytes reserved and the effective `fin`. -/
def reserveForWrite (s : SendBuf) (len : Nat) (fin : Bool) :
    Except QErr (SendBuf × Nat × Bool) := do
  let maxOff := s.off + len
  let cap ← s.cap
  let (len, fin) := if len > cap then (cap, false) else (len, fin)
  if s.finOff.any (fun f => decide (maxOff > f)) then .error .finalSize
  else if s.finOff.any (fun f => decide (maxOff = f) && !fin) then .error .finalSize
  else
    let s := if fin then { s with finOff := some maxOff } else s
    if s.ackOff ≥ maxOff then .ok (s, 0, fin) else .ok (s, len, fin)

/-- `SendReserve::append_buf` (send_buf.rs:53-73). The `BufferTooShort` error is
not reachable from `write` and `append_buf`; it counts as a panic, like the
assertion when the reservation is dropped (send_buf.rs:76-80). -/
def appendChunks (fin : Bool) : SendBuf → Nat → List Bytes → Except QErr SendBuf
  | s, reserved, [] => if reserved = 0 then .ok s else .error .panic
  | s, reserved, c :: cs =>
    if c.length > reserved then .error .panic
    else
      appendChunks fin
        { s with data := s.data ++ [RangeBuf.mk' c s.off (reserved == c.length && fin)]
                 off := s.off + c.length
                 bufferedBytes := s.bufferedBytes + c.length }
        (reserved - c.length) cs

/-- `slice::chunks` (send_buf.rs:205); `fuel` is at least the length. -/
def chunks (n : Nat) : Nat → Bytes → List Bytes
  | 0, _ => []
  | _ + 1, [] => []
  | fuel + 1, b :: d => (b :: d).take n :: chunks n fuel ((b :: d).drop n)

/-- `SendBuf::write` (send_buf.rs:194-210). -/
def write (s : SendBuf) (data : Bytes) (fin : Bool) : Except QErr (SendBuf × Nat) := do
  let (s, reserved, fin) ← s.reserveForWrite data.length fin
  if reserved = 0 then .ok (s, 0)
  else
    let d := data.take reserved
    let s ← appendChunks fin s reserved (chunks sendBufferSize d.length d)
    .ok (s, reserved)

/-- `SendBuf::append_buf` (send_buf.rs:217-238); the result also tells the bytes
handed back to the caller. -/
def appendBuf (s : SendBuf) (data : Bytes) (cap : Nat) (fin : Bool) :
    Except QErr (SendBuf × Nat × Option Bytes) := do
  let (s, reserved, fin) ← s.reserveForWrite (min cap data.length) fin
  if reserved = 0 then .ok (s, 0, some data)
  else
    let remainder := if reserved < data.length then some (data.drop reserved) else none
    let s ← appendChunks fin s reserved [data.take reserved]
    .ok (s, reserved, remainder)

/-- The search of `SendBuf::off_front` (send_buf.rs:489-502) in the chunks from
`pos` on. -/
def firstUnsent (off : Nat) : List RangeBuf → Nat
  | [] => off
  | b :: t => if b.isEmpty then firstUnsent off t else b.off

/-- `SendBuf::off_front` (send_buf.rs:489-502). -/
def offFront (s : SendBuf) : Nat := firstUnsent s.off (s.data.drop s.pos)

/-- The loop of `SendBuf::emit` (send_buf.rs:247-290). Every iteration advances
`pos` or leaves the loop, so `fuel = data.length + 1` suffices. The state is
`data`, `pos`, `buffered_bytes`, `next_off`, `out_len` and the bytes copied. -/
def emitLoop (off maxData : Nat) : Nat → List RangeBuf → Nat → Nat → Nat → Nat → Bytes →
    Except QErr (List RangeBuf × Nat × Nat × Nat × Bytes)
  | 0, data, pos, buffered, nextOff, _, out => .ok (data, pos, buffered, nextOff, out)
  | fuel + 1, data, pos, buffered, nextOff, outLen, out =>
    if outLen = 0 then .ok (data, pos, buffered, nextOff, out)
    else
      let front := firstUnsent off (data.drop pos)
      if data.isEmpty || decide (front ≥ off) || decide (front ≠ nextOff) ||
          decide (front ≥ maxData) then
        .ok (data, pos, buffered, nextOff, out)
      else
        match data[pos]? with
        | none => .ok (data, pos, buffered, nextOff, out)
        | some buf =>
          if buf.isEmpty then
            emitLoop off maxData fuel data (pos + 1) buffered nextOff outLen out
          else
            let n := min buf.len outLen
            if buffered < n then .error .panic
            else
              let data' := data.set pos (buf.consume n)
              let out' := out ++ buf.bytes.take n
              if n < buf.len then .ok (data', pos, buffered - n, buf.off + n, out')
              else
                emitLoop off maxData fuel data' (pos + 1) (buffered - n) (buf.off + n)
                  (outLen - n) out'

/-- `SendBuf::emit` (send_buf.rs:241-305): the bytes copied and the FIN flag. -/
def emit (s : SendBuf) (outLen : Nat) : Except QErr (SendBuf × Bytes × Bool) :=
  match emitLoop s.off s.maxData (s.data.length + 1) s.data s.pos s.bufferedBytes s.offFront
      outLen [] with
  | .error e => .error e
  | .ok (data, pos, buffered, nextOff, out) =>
    .ok ({ s with data, pos, bufferedBytes := buffered, emitOff := max s.emitOff nextOff },
      out, s.finOff == some nextOff)

/-- `SendBuf::update_max_data` (send_buf.rs:308-310). -/
def updateMaxData (s : SendBuf) (m : Nat) : SendBuf := { s with maxData := max s.maxData m }

/-- `SendBuf::ack` (send_buf.rs:323-325). -/
def ack (s : SendBuf) (off len : Nat) : Except QErr SendBuf :=
  match s.acked.insert (off, off + len) with
  | some a => .ok { s with acked := a }
  | none => .error .panic

/-- The chunks `ack_and_drop` walks over before it stops (send_buf.rs:342-358):
those that lie below the contiguously acknowledged offset. -/
def droppable (ackOff : Nat) (b : RangeBuf) : Bool :=
  !(decide (b.off' ≥ ackOff) || (decide (b.off' < ackOff) && decide (ackOff < b.maxOff)))

/-- `SendBuf::ack_and_drop` (send_buf.rs:327-378). -/
def ackAndDrop (s : SendBuf) (off len : Nat) : Except QErr (SendBuf × Nat) := do
  let s ← s.ack off len
  if s.data.isEmpty then .ok (s, 0)
  else if off > s.ackOff then .ok (s, 0)
  else
    let k := (s.data.takeWhile (droppable s.ackOff)).length
    if k = 0 then .ok (s, 0)
    else
      let droppedLen := ((s.data.take k).map RangeBuf.len).sum
      .ok ({ s with bufferedBytes := s.bufferedBytes - droppedLen, data := s.data.drop k,
                    pos := s.pos - k }, droppedLen)

/-- The loop of `SendBuf::retransmit` (send_buf.rs:394-432). The first argument
counts the iterations left (the bound is the number of chunks before any split),
`i` is the index of the head of the remaining chunks. -/
def retransmitLoop (off maxOff : Nat) : Nat → List RangeBuf → Nat → Nat → Nat → Nat →
    Except QErr (List RangeBuf × Nat × Nat × Nat)
  | 0, l, _, pos, buffered, total => .ok (l, pos, buffered, total)
  | _ + 1, [], _, pos, buffered, total => .ok ([], pos, buffered, total)
  | n + 1, b :: t, i, pos, buffered, total =>
    if b.off' ≥ maxOff then .ok (b :: t, pos, buffered, total)
    else if off > b.maxOff then do
      let (l, pos, buffered, total) ← retransmitLoop off maxOff n t (i + 1) pos buffered total
      .ok (b :: l, pos, buffered, total)
    else do
      let (b, rest) ←
        if b.off' < maxOff ∧ maxOff < b.maxOff then
          match b.splitOff (maxOff - b.off') with
          | some (b, nb) => Except.ok (b, nb :: t)
          | none => .error QErr.panic
        else .ok (b, t)
      let newPos := if off > b.off' ∧ off ≤ b.maxOff then min b.pos (b.start + (off - b.off'))
        else b.start
      if b.pos < newPos then .error .panic
      else
        let r := b.pos - newPos
        let (l, pos, buffered, total) ←
          retransmitLoop off maxOff n rest (i + 1) (min pos i) (buffered + r) (total + r)
        .ok ({ b with pos := newPos } :: l, pos, buffered, total)

/-- `SendBuf::retransmit` (send_buf.rs:380-435). -/
def retransmit (s : SendBuf) (off len : Nat) : Except QErr (SendBuf × Nat) := do
  let maxOff := off + len
  if s.data.isEmpty then .ok (s, 0)
  else if maxOff ≤ s.ackOff then .ok (s, 0)
  else
    let (data, pos, buffered, total) ←
      retransmitLoop off maxOff s.data.length s.data 0 s.pos s.bufferedBytes 0
    .ok ({ s with data, pos, bufferedBytes := buffered }, total)

/-- `SendBuf::reset` (send_buf.rs:438-455). -/
def reset (s : SendBuf) : Except QErr (SendBuf × Nat × Nat) := do
  let unsentOff := max s.offFront s.emitOff
  let unsentLen := s.off - unsentOff
  let s' ← { s with finOff := some unsentOff, data := [], off := unsentOff }.ack 0 unsentOff
  .ok ({ s' with pos := 0, bufferedBytes := 0 }, s.emitOff, unsentLen)

/-- `SendBuf::stop` (send_buf.rs:460-470). -/
def stop (s : SendBuf) (code : Nat) : Except QErr (SendBuf × Nat × Nat) :=
  match s.error with
  | some _ => .error .done
  | none => do
    let (s, maxOff, unsent) ← s.reset
    .ok ({ s with error := some code }, maxOff, unsent)

/-- `SendBuf::shutdown` (send_buf.rs:473-481). -/
def shutdownWrite (s : SendBuf) : Except QErr (SendBuf × Nat × Nat) :=
  if s.shutdown then .error .done
  else { s with shutdown := true }.reset

/-- `SendBuf::is_fin` (send_buf.rs:513-519). -/
def isFin (s : SendBuf) : Bool := s.finOff == some s.off

/-- `SendBuf::is_complete` (send_buf.rs:525-533). -/
def isComplete (s : SendBuf) : Bool := s.finOff.any (fun f => s.acked.eqRange (0, f))

/-- `SendBuf::is_stopped` (send_buf.rs:536-538). -/
def isStopped (s : SendBuf) : Bool := s.error.isSome

/-- `Stream::is_flushable` (stream/mod.rs:842-848). -/
def isFlushable (s : SendBuf) : Bool :=
  !s.data.isEmpty && decide (s.offFront < s.off) && decide (s.offFront < s.maxData)

end SendBuf
end Stream
end Verif
