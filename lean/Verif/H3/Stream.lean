import Verif.H3.Frame

/-!
Model of an HTTP/3 stream (`/repo/quiche/src/h3/stream.rs`) and of the receive side of the
transport stream below it, as far as HTTP/3 sees it.
-/

namespace Verif.H3
open Verif

/-! ### The transport stream -/

/-- The receive side of a transport stream. `all` are the bytes that have arrived without gap,
`off` of which have been read. `fin`: the size is known and is `all.length`. `marker`: an empty
buffer is queued, of an empty final frame or of a reset. `err` is the code of a reset, after
which all is read (stream/recv_buf.rs, `reset`). `sendDone`: the send side is complete, or there
is none. `gone`: the stream has been collected. `drain`: reading has been shut down. -/
structure Rx where
  all : Bytes := []
  off : Nat := 0
  fin : Bool := false
  marker : Bool := false
  err : Option Nat := none
  sendDone : Bool := false
  gone : Bool := false
  drain : Bool := false
  deriving DecidableEq, Repr

/-- The bytes that can be read. -/
def Rx.avail (r : Rx) : Bytes := r.all.drop r.off

/-- `RecvBuf::is_fin` (stream/recv_buf.rs), or the stream has been collected:
`stream_finished` (lib.rs:6540-6548). -/
def Rx.finished (r : Rx) : Bool := r.gone || (r.fin && r.off == r.all.length)

/-- `RecvBuf::ready`: `stream_readable` (lib.rs:6378-6387). -/
def Rx.readable (r : Rx) : Bool := !r.gone && (r.off < r.all.length || r.marker)

/-- Collecting a complete stream (lib.rs:5801-5803 and 5823-5825). -/
def Rx.collect (r : Rx) : Rx := { r with gone := r.gone || (r.finished && r.sendDone) }

/-- The bytes and the buffers taken by `emit_or_discard`. -/
def Rx.take (r : Rx) (n : Nat) : Rx :=
  { r with
    off := r.off + min n (r.all.length - r.off)
    marker := r.marker && n == 0 }

/-- `stream_recv` and `stream_discard` for at most `n` bytes (lib.rs:5767-5858,
stream/recv_buf.rs `emit_or_discard`): the bytes, and whether the stream is finished. -/
def Rx.recv (r : Rx) (n : Nat) : Except Err (Bytes × Bool) × Rx :=
  if r.gone then (.error .transport, r)
  else if !r.readable then (.error .done, r)
  else
    match r.err with
    | some e => (.error (.streamReset e), { r with marker := false }.collect)
    | none => (.ok (r.avail.take n, (r.take n).finished), (r.take n).collect)

/-- `stream_shutdown(Read)` (lib.rs:6219-6257). -/
def Rx.shutdown (r : Rx) : Except Err Unit × Rx :=
  if r.gone || r.drain then (.error .done, r)
  else (.ok (), { r with drain := true, marker := false, off := r.all.length })

/-! ### The HTTP/3 stream -/

/-- `Type` (h3/stream.rs:44-51). -/
inductive Ty where
  | control | request | push | qpackEncoder | qpackDecoder | unknown
  deriving DecidableEq, Repr

/-- `State` (h3/stream.rs:68-98). -/
inductive SState where
  | streamType | frameType | framePayloadLen | framePayload | data | pushId
  | qpackInstruction | skipFramePayload | drain | finished
  deriving DecidableEq, Repr

/-- `Type::deserialize` (h3/stream.rs:101-110). -/
def Ty.deserialize (v : Nat) : Ty :=
  if v = 0 then .control else if v = 1 then .push else if v = 2 then .qpackEncoder
  else if v = 3 then .qpackDecoder else .unknown

/-- `MAX_STATE_BUF_SIZE` (h3/stream.rs:41). -/
abbrev maxStateBuf : Nat := 2 ^ 24 - 1

/-- `Stream` (h3/stream.rs:128-190), but for the identifier. -/
structure Strm where
  ty : Option Ty
  state : SState
  buf : Bytes := []
  len : Nat := 1
  off : Nat := 0
  frameType : Option Nat := none
  isLocal : Bool
  remoteInit : Bool := false
  localInit : Bool := false
  localFinished : Bool := false
  dataTriggered : Bool := false
  lastPrio : Option Bytes := none
  headersReceived : Nat := 0
  dataReceived : Bool := false
  trailersSent : Bool := false
  trailersReceived : Bool := false
  maxHeaders : Nat
  maxPrio : Nat
  deriving DecidableEq, Repr

def satAdd (a b : Nat) : Nat := if a + b < 2 ^ 64 then a + b else 2 ^ 64 - 1

/-- Streams with these identifiers are bidirectional (stream/mod.rs, `is_bidi`). -/
def isBidi (id : Nat) : Bool := id % 4 < 2

/-- `Stream::new` (h3/stream.rs:197-253). -/
def Strm.new (id : Nat) (isLocal : Bool) (maxField maxPrio : Nat) : Strm :=
  { ty := if isBidi id then some .request else none
    state := if isBidi id then .frameType else .streamType
    isLocal := isLocal
    maxHeaders := satAdd maxField (maxField / 2)
    maxPrio := maxPrio }

/-- `state_transition` (h3/stream.rs:957-982). The buffer is cleared also if it fails. -/
def Strm.transition (s : Strm) (st : SState) (len : Nat) (resize : Bool) : Except Err Unit × Strm :=
  if resize && decide (len > maxStateBuf) then (.error .excessiveLoad, { s with buf := [] })
  else (.ok (), { s with buf := [], state := st, off := 0, len := len })

/-- The state after the stream type (h3/stream.rs:269-281). -/
def Ty.next : Ty → SState
  | .control | .request => .frameType
  | .push => .pushId
  | .qpackEncoder | .qpackDecoder => .qpackInstruction
  | .unknown => .drain

/-- The fields set by `set_ty` before the transition (h3/stream.rs:267-281). -/
def Strm.withTy (s : Strm) (ty : Ty) : Strm :=
  { s with
    ty := some ty
    remoteInit := s.remoteInit || ty == .qpackEncoder || ty == .qpackDecoder }

/-- `set_ty` (h3/stream.rs:264-286); the assertion holds where it is called. -/
def Strm.setTy (s : Strm) (ty : Ty) : Except Err Unit × Strm :=
  (s.withTy ty).transition ty.next 1 true

/-- `set_push_id` (h3/stream.rs:289-297). -/
def Strm.setPushId (s : Strm) : Except Err Unit × Strm := s.transition .frameType 1 true

/-- Frames that are never valid on a request stream (h3/stream.rs:389-399). -/
def neverOnRequest (ty : Nat) : Bool :=
  ty == tCancelPush || ty == tSettings || ty == tGoAway || ty == tMaxPush || ty == tPrioRequest ||
    ty == tPrioPush

/-- `validate_request_frame_type` (h3/stream.rs:386-438). -/
def Strm.validateRequest (s : Strm) (ty : Nat) : Except Err Strm :=
  if neverOnRequest ty then .error .frameUnexpected
  else if s.isLocal then .ok s
  else if ty = tHeaders then
    if !s.remoteInit then .ok { s with remoteInit := true }
    else if s.trailersReceived then .error .frameUnexpected
    else if s.dataReceived then .ok { s with trailersReceived := true }
    else .ok s
  else if ty = tData then
    if !s.remoteInit then .error .frameUnexpected
    else if s.trailersReceived then .error .frameUnexpected
    else .ok { s with dataReceived := true }
  else .ok s

/-- Control streams (h3/stream.rs:305-336). -/
def Strm.validateControl (s : Strm) (ty : Nat) : Except Err Strm :=
  if !s.remoteInit then
    if ty = tSettings then .ok { s with remoteInit := true } else .error .missingSettings
  else if ty = tSettings ∨ ty = tData ∨ ty = tHeaders ∨ ty = tPushPromise then
    .error .frameUnexpected
  else .ok s

/-- Push streams (h3/stream.rs:342-362). -/
def Strm.validatePush (s : Strm) (ty : Nat) : Except Err Strm :=
  if ty = tCancelPush ∨ ty = tSettings ∨ ty = tPushPromise ∨ ty = tGoAway ∨ ty = tMaxPush then
    .error .frameUnexpected
  else .ok s

/-- The `match self.ty` of `set_frame_type` (h3/stream.rs:304-365). -/
def Strm.validate (s : Strm) (ty : Nat) : Except Err Strm :=
  match s.ty with
  | some .control => s.validateControl ty
  | some .request => s.validateRequest ty
  | some .push => s.validatePush ty
  | _ => .error .frameUnexpected

/-- `set_frame_type` (h3/stream.rs:300-372). -/
def Strm.setFrameType (s : Strm) (ty : Nat) : Except Err Unit × Strm :=
  match s.validate ty with
  | .error e => (.error e, s)
  | .ok s => { s with frameType := some ty }.transition .framePayloadLen 1 true

/-- The `match self.frame_type` of `set_frame_payload_len` (h3/stream.rs:454-522). -/
def Strm.payloadState (s : Strm) (len : Nat) : Except Err (SState × Bool) :=
  match s.frameType with
  | none => if len > maxStateBuf then .error .excessiveLoad else .ok (.skipFramePayload, false)
  | some ty =>
    if ty = tData then .ok (.data, false)
    else if ty = tHeaders then
      if len > s.maxHeaders then .error .excessiveLoad else .ok (.framePayload, true)
    else if ty = tCancelPush ∨ ty = tGoAway ∨ ty = tMaxPush then
      if len < 1 ∨ 8 < len then .error .frameError else .ok (.framePayload, true)
    else if ty = tSettings then
      if len > maxSettings then .error .frameError else .ok (.framePayload, true)
    else if ty = tPushPromise then
      if len = 0 then .error .frameError
      else if len > satAdd s.maxHeaders 8 then .error .excessiveLoad
      else .ok (.framePayload, true)
    else if ty = tPrioRequest ∨ ty = tPrioPush then
      if len = 0 then .error .frameError
      else if len > s.maxPrio then .error .excessiveLoad
      else .ok (.framePayload, true)
    else if len > maxStateBuf then .error .excessiveLoad
    else .ok (.skipFramePayload, false)

/-- Frames are only expected on these streams (h3/stream.rs:450). -/
def Strm.framed (s : Strm) : Bool :=
  s.ty == some .control || s.ty == some .request || s.ty == some .push

/-- `set_frame_payload_len` (h3/stream.rs:446-527). -/
def Strm.setFramePayloadLen (s : Strm) (len : Nat) : Except Err Unit × Strm :=
  if !s.framed then (.error .internalError, s)
  else
    match s.payloadState len with
    | .error e => (.error e, s)
    | .ok (st, resize) => s.transition st len resize

/-- `state_buffer_complete` (h3/stream.rs:951-953). -/
def Strm.complete (s : Strm) : Bool := s.off == s.len

/-- `critical_stream_closed` (h3/stream.rs:941-948). -/
def Strm.critical (s : Strm) : Bool :=
  s.ty == some .control || s.ty == some .qpackEncoder || s.ty == some .qpackDecoder

/-- `reset_data_event` (h3/stream.rs:921-923). -/
def Strm.rearm (s : Strm) : Strm := { s with dataTriggered := false }

/-- `commit_state_buf_read` (h3/stream.rs:562-571). -/
def Strm.commit (s : Strm) (bs : Bytes) : Strm :=
  { s with buf := s.buf ++ bs, off := s.off + bs.length }

/-- The length of the slice of `spare_state_buf` (h3/stream.rs:534-557): at least one byte and
at most what is needed; how many depends on the capacity of the buffer. -/
def usable (spare : Nat → Nat → Nat) (have_ need : Nat) : Nat := min need (Nat.max 1 (spare have_ need))

/-- The outcome of reading for a state: an error, or the request to close the connection because
a critical stream is closed, or nothing. -/
inductive Fill where
  | ok | err (e : Err) | closedCritical
  deriving DecidableEq, Repr

/-- The loop of `try_fill_buffer` and what follows (h3/stream.rs:586-642). Every iteration but
the last reads at least one byte. -/
def Strm.fillLoop (spare : Nat → Nat → Nat) : Nat → Strm → Rx → Fill × Strm × Rx
  | 0, s, r => (.err .panic, s, r)
  | k + 1, s, r =>
    match r.recv (usable spare s.buf.length (s.len - s.off)) with
    | (.ok (bs, fin), r') =>
      if fin && (s.commit bs).critical then (.closedCritical, s.commit bs, r')
      else if bs.length < usable spare s.buf.length (s.len - s.off) then
        if (s.commit bs).complete then (.ok, s.commit bs, r')
        else (.err .done, (s.commit bs).rearm, r')
      else if (s.commit bs).complete then (.ok, s.commit bs, r')
      else Strm.fillLoop spare k (s.commit bs) r'
    | (.error (.streamReset e), r') =>
      if s.critical then (.closedCritical, s, r') else (.err (.streamReset e), s, r')
    | (.error .done, r') => (.err .done, s.rearm, r')
    | (.error e, r') => (.err e, s, r')

/-- `try_fill_buffer` (h3/stream.rs:578-643). -/
def Strm.tryFill (spare : Nat → Nat → Nat) (s : Strm) (r : Rx) : Fill × Strm × Rx :=
  if s.complete then (.ok, s, r) else Strm.fillLoop spare (s.len - s.off + 1) s r

/-- `try_skip_data` (h3/stream.rs:650-704). -/
def Strm.trySkipData (s : Strm) (r : Rx) : Fill × Strm × Rx :=
  if s.complete then (.ok, s, r)
  else
    match r.recv (s.len - s.off) with
    | (.ok (bs, fin), r') =>
      if fin && s.critical then (.closedCritical, s, r')
      else if s.off + bs.length == s.len then (.ok, { s with off := s.off + bs.length }, r')
      else (.err .done, { s with off := s.off + bs.length }.rearm, r')
    | (.error (.streamReset e), r') =>
      if s.critical then (.closedCritical, s, r') else (.err (.streamReset e), s, r')
    | (.error .done, r') => (.err .done, s.rearm, r')
    | (.error e, r') => (.err e, s, r')

/-- `try_skip_frame` (h3/stream.rs:832-843); the transition does not fail. -/
def Strm.trySkipFrame (s : Strm) (r : Rx) : Fill × Strm × Rx :=
  match s.trySkipData r with
  | (.ok, s, r) => (.ok, (s.rearm.transition .frameType 1 true).2, r)
  | x => x

/-- The length of the integer is known once its first byte is (h3/stream.rs:793-796). -/
def Strm.varintLen (s : Strm) : Strm :=
  if s.off = 1 then
    { s with
      len := match s.buf with
        | b :: _ => varintParseLen b
        | [] => 0 }
  else s

/-- `try_consume_varint` (h3/stream.rs:792-807); `none` stands for an error. -/
def Strm.tryVarint (s : Strm) : Option Nat × Strm :=
  if !s.varintLen.complete then (none, s.varintLen)
  else
    match decVarint s.buf with
    | .ok (v, _) => (some v, s.varintLen)
    | .error _ => (none, s.varintLen)

/-- `try_consume_frame` (h3/stream.rs:812-829); the transition does not fail. -/
def Strm.tryFrame (s : Strm) : Except Err Frame × Strm :=
  match s.frameType with
  | none => (.error .panic, s.rearm)
  | some ty =>
    match fromBytes ty s.len s.buf with
    | .error e => (.error e, s.rearm)
    | .ok f => (.ok f, (s.rearm.transition .frameType 1 true).2)

/-- The transition at the end of `try_consume_data` (h3/stream.rs:873-875). -/
def Strm.dataDone (s : Strm) : Strm :=
  if s.complete then (s.transition .frameType 1 true).2 else s

/-- `try_consume_data` with room for `n` bytes (h3/stream.rs:846-878). -/
def Strm.tryData (s : Strm) (r : Rx) (n : Nat) : Except Err (Bytes × Bool) × Strm × Rx :=
  match r.recv (min n (s.len - s.off)) with
  | (.error .done, r') => (.error .done, s.rearm, r')
  | (.error e, r') => (.error e, s, r')
  | (.ok (bs, fin), r') =>
    let s1 := { s with off := s.off + bs.length }
    let s2 := if r'.readable then s1 else s1.rearm
    (.ok (bs, fin), s2.dataDone, r')

/-- `finished` (h3/stream.rs:881-883). -/
def Strm.finish (s : Strm) : Strm := (s.transition .finished 0 false).2

end Verif.H3
