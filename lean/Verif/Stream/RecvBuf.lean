import Verif.Stream.RangeBuf
import Verif.Stream.FlowControl

/-!
Model of `/repo/quiche/src/stream/recv_buf.rs`: reassembly of received stream data.
`BTreeMap<u64, RangeBuf>` is modelled by the list of its entries in key order.
-/

namespace Verif.Stream
open Verif

/-- An entry of the map of chunks: key (`max_off`) and chunk. -/
abbrev Entry := Nat × RangeBuf

/-- `RecvBuf` (recv_buf.rs:50-72). -/
structure RecvBuf where
  data : List Entry := []
  off : Nat := 0
  len : Nat := 0
  flowControl : FlowControl := {}
  finOff : Option Nat := none
  error : Option Nat := none
  drain : Bool := false
  deriving DecidableEq, Repr

namespace RecvBuf

/-- `BTreeMap::insert`. -/
def mapInsert (key : Nat) (b : RangeBuf) : List Entry → List Entry
  | [] => [(key, b)]
  | (k, v) :: t =>
    if key < k then (key, b) :: (k, v) :: t
    else if key = k then (key, b) :: t
    else (k, v) :: mapInsert key b t

/-- `RecvBuf::new` (recv_buf.rs:76-85). -/
def new (maxData initialWindow maxWindow : Nat) : RecvBuf :=
  { flowControl := FlowControl.new maxData initialWindow maxWindow }

/-- `RecvBuf::max_data` (recv_buf.rs:348-350). -/
def maxData (r : RecvBuf) : Nat := r.flowControl.maxData

/-- What the overlap loop of `write` decides about the chunk at hand. -/
inductive Overlap where
  /-- keep this chunk, after queueing the given remainders -/
  | keep (b : RangeBuf) (tmp : List RangeBuf)
  /-- `continue 'tmp`: fully contained -/
  | skip (tmp : List RangeBuf)
  | panic
  deriving DecidableEq, Repr

/-- The loop over existing chunks in `write` (recv_buf.rs:161-186). The list holds
the entries of `self.data.range(buf.off()..)` not yet visited, `tmp` the queue. -/
def overlapLoop : List Entry → RangeBuf → List RangeBuf → Overlap
  | [], buf, tmp => .keep buf tmp
  | (_, b) :: t, buf, tmp =>
    let off := buf.off
    if b.off > buf.maxOff then .keep buf tmp
    else if off ≥ b.off ∧ buf.maxOff ≤ b.maxOff then .skip tmp
    else
      -- new buffer's start overlaps existing buffer
      match (if off ≥ b.off ∧ off < b.maxOff then (buf.splitOff (b.maxOff - off)).map (·.2)
             else some buf) with
      | none => .panic
      | some buf =>
        -- new buffer's end overlaps existing buffer
        if off < b.off ∧ buf.maxOff > b.off then
          match buf.splitOff (b.off - off) with
          | none => .panic
          | some (front, rest) => overlapLoop t front (tmp ++ [rest])
        else overlapLoop t buf tmp

/-- The loop over the queue of pieces in `write` (recv_buf.rs:143-197). `none` is a
panic. Every iteration either ends a piece or moves past an existing chunk, so
`fuel = data.length + 1` suffices (`tmpLoop_spec`); running out is reported as a
panic as well. -/
def tmpLoop : Nat → RecvBuf → List RangeBuf → Option RecvBuf
  | _, r, [] => some r
  | 0, _, _ :: _ => none
  | fuel + 1, r, buf :: tmp =>
    match (if r.off > buf.off then (buf.splitOff (r.off - buf.off)).map (·.2) else some buf) with
    | none => none
    | some buf =>
      match (if buf.off < r.len ∨ buf.isEmpty then
               overlapLoop (r.data.filter (fun e => buf.off ≤ e.1)) buf tmp
             else .keep buf tmp) with
      | .panic => none
      | .skip tmp => tmpLoop fuel r tmp
      | .keep buf tmp =>
        let len := max r.len buf.maxOff
        if r.drain then tmpLoop fuel { r with len, off := len } tmp
        else tmpLoop fuel { r with len, data := mapInsert buf.maxOff buf r.data } tmp

/-- `RecvBuf::write` (recv_buf.rs:92-200). -/
def write (r : RecvBuf) (buf : RangeBuf) : Except QErr Unit × RecvBuf :=
  if buf.maxOff > r.maxData then (.error .flowControl, r)
  else if r.finOff.any (fun f => buf.maxOff > f || (buf.fin && f != buf.maxOff)) then
    (.error .finalSize, r)
  else if buf.fin && buf.maxOff < r.len then (.error .finalSize, r)
  else if r.finOff.isSome && buf.isEmpty then (.ok (), r)
  else
    let r := if buf.fin then { r with finOff := some buf.maxOff } else r
    if !buf.fin && buf.isEmpty then (.ok (), r)
    else if r.off ≥ buf.maxOff && !buf.isEmpty then (.ok (), r)
    else
      match tmpLoop (r.data.length + 1) r [buf] with
      | some r => (.ok (), r)
      | none => (.error .panic, r)

/-- `RecvBuf::ready` (recv_buf.rs:413-420). -/
def ready (r : RecvBuf) : Bool :=
  match r.data with
  | [] => false
  | (_, b) :: _ => b.off == r.off

/-- `RecvBuf::is_fin` (recv_buf.rs:399-405). -/
def isFin (r : RecvBuf) : Bool := r.finOff == some r.off

/-- The copying loop of `emit_or_discard` (recv_buf.rs:249-285): bytes taken out,
new read offset, remaining entries. -/
def emitLoop (cap off : Nat) : List Entry → Bytes × Nat × List Entry
  | [] => ([], off, [])
  | (k, b) :: t =>
    if cap > 0 ∧ b.off = off then
      let n := min b.len cap
      if n < b.len then (b.bytes.take n, off + n, (k, b.consume n) :: t)
      else
        let (out, off', t') := emitLoop (cap - n) (off + n) t
        (b.bytes.take n ++ out, off', t')
    else ([], off, (k, b) :: t)

/-- `RecvBuf::emit_or_discard` (recv_buf.rs:230-291). `cap` is the room in the
caller's buffer (`Emit`) or the number of bytes to drop (`Discard`); the bytes
returned are those written by `Emit`, and the ones dropped by `Discard`. -/
def emit (r : RecvBuf) (cap : Nat) : Except QErr (Bytes × Bool) × RecvBuf :=
  if !r.ready then (.error .done, r)
  else
    match r.error with
    | some e => (.error (.streamReset e), { r with data := [] })
    | none =>
      let (out, off, data) := emitLoop cap r.off r.data
      let r := { r with off, data, flowControl := r.flowControl.addConsumed out.length }
      (.ok (out, r.isFin), r)

/-- `RecvBufResetReturn` (stream/mod.rs:63-71). -/
structure ResetReturn where
  maxDataDelta : Nat
  consumed : Nat
  deriving DecidableEq, Repr

/-- `RecvBuf::reset` (recv_buf.rs:295-335). -/
def reset (r : RecvBuf) (code finalSize : Nat) : Except QErr ResetReturn × RecvBuf :=
  if r.finOff.any (fun f => f != finalSize) then (.error .finalSize, r)
  else if finalSize < r.len then (.error .finalSize, r)
  else if r.error.isSome then (.ok ⟨0, 0⟩, r)
  else if finalSize < r.off then (.error .panic, r)
  else
    let res : ResetReturn := { maxDataDelta := finalSize - r.len, consumed := finalSize - r.off }
    let r := { r with error := some code, off := finalSize, data := [] }
    match r.write (.mk' [] finalSize true) with
    | (.ok (), r) => (.ok res, r)
    | (.error e, r) => (.error e, r)

/-- `RecvBuf::shutdown` (recv_buf.rs:365-378). -/
def shutdown (r : RecvBuf) : Except QErr Nat × RecvBuf :=
  if r.drain then (.error .done, r)
  else if r.len < r.off then (.error .panic, { r with drain := true, data := [] })
  else (.ok (r.len - r.off), { r with drain := true, data := [], off := r.len })

/-- `RecvBuf::update_max_data` (recv_buf.rs:338-340). -/
def updateMaxData (r : RecvBuf) (now : Nat) : RecvBuf :=
  { r with flowControl := r.flowControl.updateMaxData now }

/-- `RecvBuf::autotune_window` (recv_buf.rs:358-360). -/
def autotuneWindow (r : RecvBuf) (now rtt : Nat) : RecvBuf :=
  { r with flowControl := r.flowControl.autotuneWindow now rtt }

/-- `RecvBuf::almost_full` (recv_buf.rs:386-388); `none` is the underflow in
`should_update_max_data`. -/
def almostFull (r : RecvBuf) : Option Bool :=
  if r.finOff.isNone then r.flowControl.shouldUpdateMaxData else some false

/-- `RecvBuf::readable_len` (recv_buf.rs:429-452). -/
def readableLenLoop (maxLen : Nat) : List Entry → Nat → Nat → Nat
  | [], contiguous, _ => contiguous
  | (_, b) :: t, contiguous, next =>
    if b.off ≠ next then contiguous
    else
      let c := min (contiguous + b.len) maxLen
      if c = maxLen then c else readableLenLoop maxLen t c b.maxOff

def readableLen (r : RecvBuf) (maxLen : Nat) : Nat := readableLenLoop maxLen r.data 0 r.off

end RecvBuf
end Verif.Stream
