import Verif.Conn.Assoc
import Verif.Stream.RecvBuf
import Verif.Stream.SendBuf

/-!
Model of the stream handling of a connection: `/repo/quiche/src/stream/mod.rs`
(`StreamMap`, `Stream`, `StreamPriorityKey`) and the parts of
`/repo/quiche/src/lib.rs` that move data between application, streams and packets.

Simplifications
* Packets are represented by the frames about streams in them. Which control frames
  are put into which packet, and whether they fit, is left open (`fits`).
* Hash maps and sets are association lists; the order of their iteration is left open
  by making "put the frame of stream `id` into a packet" one operation per stream.
* The intrusive red-black trees are lists in iteration order (see `Conn/Queue.lean`
  for the justification of `qins`). An `Arc<StreamPriorityKey>` is linked into a tree
  iff the tree holds a key with this stream ID, since a stream's key is replaced in
  all trees together with the stream's own copy (`update_priority`).
* `u64`/`usize` are `Nat`; subtractions that could underflow are explicit panics.
* `tx_cap_factor : f64` is a fraction.
* `collected` remembers the final state of the stream next to its ID; the code only
  has the ID. Only statements read that state, no operation does.
* Statistics counters, qlog and STREAMS_BLOCKED are left out. `stream_send_zc`
  (`append_buf`) behaves like `stream_send` on accepted data (see `SendSpec`) and is
  left out.
* Connection IDs, paths and encryption levels are left out: one active path.
-/

namespace Verif.Conn
open Verif Verif.Stream

/-- Errors of the connection that `QErr` lacks are mapped: `InvalidFrame`. -/
inductive CErr where
  | q (e : QErr)
  | invalidFrame
  deriving DecidableEq, Repr

/-- `is_local` (stream/mod.rs:883-885). -/
def isLocal (id : Nat) (isServer : Bool) : Bool := id % 2 == isServer.toNat

/-- `is_bidi` (stream/mod.rs:888-890). -/
def isBidi (id : Nat) : Bool := id / 2 % 2 == 0

/-- `StreamPriorityKey` (stream/mod.rs:893-901). -/
structure Key where
  urgency : Nat
  incremental : Bool
  id : Nat
  deriving DecidableEq, Repr

/-- `StreamPriorityKey::cmp` (stream/mod.rs:930-965). -/
def Key.cmp (a b : Key) : Ordering :=
  if a.id = b.id then .eq
  else if a.urgency ≠ b.urgency then compare a.urgency b.urgency
  else if !a.incremental && !b.incremental then compare a.id b.id
  else if a.incremental && !b.incremental then .gt
  else if !a.incremental && b.incremental then .lt
  else .gt

/-- `RBTree::insert` seen in iteration order: the descent goes left iff the new key is
less than the key at the node. -/
def qins (k : Key) : List Key → List Key
  | [] => [k]
  | e :: t => if k.cmp e == .lt then k :: e :: t else e :: qins k t

/-- `is_linked`. -/
def linked (q : List Key) (id : Nat) : Bool := q.any (fun e => e.id == id)

/-- `insert_readable`, `insert_writable`, `insert_flushable` (stream/mod.rs:357-361,
383-387, 409-413). -/
def qadd (k : Key) (q : List Key) : List Key := if linked q k.id then q else qins k q

/-- `remove_readable`, `remove_writable`, `remove_flushable` (stream/mod.rs:364-375,
393-404, 416-427). -/
def qdel (id : Nat) (q : List Key) : List Key := q.filter (fun e => e.id != id)

/-- `Stream` (stream/mod.rs:773-801). `urgency` and `incremental` duplicate the key. -/
structure Stream where
  recv : RecvBuf
  send : SendBuf
  sendLowat : Nat
  bidi : Bool
  local' : Bool
  key : Key
  deriving DecidableEq, Repr

/-- `DEFAULT_URGENCY` (stream/mod.rs:46). -/
abbrev defaultUrgency : Nat := 127

namespace Stream

/-- `Stream::new` (stream/mod.rs:805-826). -/
def new (id maxRx maxTx : Nat) (loc : Bool) (window maxWindow : Nat) : Stream :=
  { recv := .new maxRx window maxWindow, send := .new maxTx, sendLowat := 1, bidi := isBidi id,
    local' := loc, key := { urgency := defaultUrgency, incremental := true, id } }

/-- `Stream::is_readable` (stream/mod.rs:829-831). -/
def isReadable (s : Stream) : Bool := s.recv.ready

/-- `Stream::is_writable` (stream/mod.rs:835-840). -/
def isWritable (s : Stream) : Bool :=
  !s.send.shutdown && !s.send.isFin && decide (s.send.off + s.sendLowat < s.send.maxData)

/-- `Stream::is_flushable` (stream/mod.rs:844-850). -/
def isFlushable (s : Stream) : Bool := s.send.isFlushable

/-- `Stream::is_complete` (stream/mod.rs:862-878). -/
def isComplete (s : Stream) : Bool :=
  match s.bidi, s.local' with
  | true, _ => s.recv.isFin && s.send.isComplete
  | false, true => s.send.isComplete
  | false, false => s.recv.isFin

end Stream

/-- The initial stream limits among the transport parameters
(`initial_max_stream_data_*`, transport_params.rs). -/
structure StreamLimits where
  bidiLocal : Nat := 0
  bidiRemote : Nat := 0
  uni : Nat := 0
  deriving DecidableEq, Repr

/-- The stream counters of `StreamMap` for one of the two kinds
(stream/mod.rs:125-155). -/
structure Counts where
  peerMax : Nat := 0
  peerOpened : Nat := 0
  localMax : Nat := 0
  localMaxNext : Nat := 0
  initial : Nat := 0
  localOpened : Nat := 0
  deriving DecidableEq, Repr

/-- Frames about streams in sent packets, as remembered for acknowledgement and loss. -/
inductive Frame where
  | stream (id off len : Nat) (fin : Bool)
  | reset (id code finalSize : Nat)
  | stop (id code : Nat)
  | maxStreamData (id : Nat)
  | maxData
  | maxStreams (bidi : Bool)
  deriving DecidableEq, Repr

/-- `Connection` (lib.rs:1290-1640), the part about streams, with `StreamMap`
(stream/mod.rs:116-203). -/
structure Conn where
  isServer : Bool
  loc : StreamLimits
  peer : StreamLimits := {}
  maxStreamWindow : Nat
  streams : List (Nat × Stream) := []
  collected : List (Nat × Stream) := []
  bidi : Counts := {}
  uni : Counts := {}
  flushable : List Key := []
  readable : List Key := []
  writable : List Key := []
  almostFull : List Nat := []
  blocked : List (Nat × Nat) := []
  reset : List (Nat × (Nat × Nat)) := []
  stopped : List (Nat × Nat) := []
  txBuffered : Nat := 0
  rxData : Nat := 0
  fc : FlowControl
  shouldSendMaxData : Bool := false
  shouldSendMaxStreamsBidi : Bool := false
  shouldSendMaxStreamsUni : Bool := false
  txCap : Nat := 0
  factorNum : Nat := 1
  factorDen : Nat := 1
  txData : Nat := 0
  maxTxData : Nat := 0
  blockedLimit : Option Nat := none
  /-- frames in packets sent so far -/
  frames : List Frame := []
  /-- the connection is being closed because of an invalid frame: no packet is
  processed (lib.rs:2973-2977) and no stream frame sent any more -/
  dead : Bool := false
  /-- the code has panicked -/
  crashed : Bool := false
  deriving DecidableEq, Repr

namespace Conn

def get (c : Conn) (id : Nat) : Option Stream := Assoc.get c.streams id

/-- Stores a stream back after a change through `&mut Stream`. -/
def put (c : Conn) (id : Nat) (s : Stream) : Conn := { c with streams := Assoc.put c.streams id s }

def counts (c : Conn) (bidi : Bool) : Counts := if bidi then c.bidi else c.uni

def setCounts (c : Conn) (bidi : Bool) (k : Counts) : Conn :=
  if bidi then { c with bidi := k } else { c with uni := k }

/-- `StreamMap::is_collected` (stream/mod.rs:634-636). -/
def isCollected (c : Conn) (id : Nat) : Bool := (Assoc.get c.collected id).isSome

/-- The initial limits of a new stream: received and sent data
(stream/mod.rs:259-278). -/
def initialLimits (c : Conn) (loc : Bool) (id : Nat) : Nat × Nat :=
  match loc, isBidi id with
  | true, true => (c.loc.bidiLocal, c.peer.bidiRemote)
  | true, false => (0, c.peer.uni)
  | false, true => (c.loc.bidiRemote, c.peer.bidiLocal)
  | false, false => (c.loc.uni, 0)

/-- The end of `get_or_create` for a new stream (stream/mod.rs:313-350): the counters
are updated, the stream is stored and queued if it is writable. -/
def addStream (c : Conn) (id : Nat) (k : Counts) (s : Stream) : Conn :=
  let c := (c.setCounts (isBidi id) k).put id s
  if s.isWritable then { c with writable := qins s.key c.writable } else c

/-- `StreamMap::get_or_create` (stream/mod.rs:242-352), as called by
`Connection::get_or_create_stream` (lib.rs:8264-8274). -/
def getOrCreate (c : Conn) (id : Nat) (loc : Bool) : Except QErr (Conn × Stream) :=
  match c.get id with
  | some s => .ok (c, s)
  | none =>
    if c.isCollected id then .error .done
    else if loc != isLocal id c.isServer then .error (.invalidStreamState id)
    else
      let (maxRx, maxTx) := c.initialLimits loc id
      let k := c.counts (isBidi id)
      let s := Stream.new id maxRx maxTx loc maxRx c.maxStreamWindow
      if isLocal id c.isServer then
        let n := max k.localOpened (id / 4 + 1)
        if n > k.peerMax then .error .streamLimit
        else .ok (c.addStream id { k with localOpened := n } s, s)
      else
        let n := max k.peerOpened (id / 4 + 1)
        if n > k.localMax then .error .streamLimit
        else .ok (c.addStream id { k with peerOpened := n } s, s)

def insertReadable (c : Conn) (k : Key) : Conn := { c with readable := qadd k c.readable }
def removeReadable (c : Conn) (id : Nat) : Conn := { c with readable := qdel id c.readable }
def insertWritable (c : Conn) (k : Key) : Conn := { c with writable := qadd k c.writable }
def removeWritable (c : Conn) (id : Nat) : Conn := { c with writable := qdel id c.writable }
def insertFlushable (c : Conn) (k : Key) : Conn := { c with flushable := qadd k c.flushable }
def removeFlushable (c : Conn) (id : Nat) : Conn := { c with flushable := qdel id c.flushable }

/-- `StreamMap::insert_almost_full` (stream/mod.rs:468-470). -/
def insertAlmostFull (c : Conn) (id : Nat) : Conn :=
  { c with almostFull := if c.almostFull.contains id then c.almostFull else id :: c.almostFull }

/-- `StreamMap::collect` (stream/mod.rs:577-602). `saturating_add` does not saturate:
2^64 streams cannot be collected. -/
def collect (c : Conn) (id : Nat) (s : Stream) : Conn :=
  let k := c.counts (isBidi id)
  let c := if s.local' then c else c.setCounts (isBidi id) { k with localMaxNext := k.localMaxNext + 1 }
  { c with
    streams := Assoc.del c.streams id
    readable := qdel id c.readable
    writable := qdel id c.writable
    flushable := qdel id c.flushable
    collected := Assoc.put c.collected id s }

/-- `StreamMap::update_priority` (stream/mod.rs:434-451). -/
def updatePriority (c : Conn) (k : Key) : Conn :=
  let upd (q : List Key) : List Key := if linked q k.id then qins k (qdel k.id q) else q
  { c with readable := upd c.readable, writable := upd c.writable, flushable := upd c.flushable }

/-- `StreamMap::sub_tx_buffered` (stream/mod.rs:732-738); `none` is the failed
`debug_assert`. -/
def subTxBuffered (c : Conn) (n : Nat) : Option Conn :=
  if c.txBuffered < n then none else some { c with txBuffered := c.txBuffered - n }

/-- `Connection::update_tx_cap` (lib.rs:8924-8933); `none` is the underflow of
`max_tx_data - tx_data`. `w` is the available congestion window. The product with the
`f64` factor is exact below 2^53. -/
def updateTxCap (c : Conn) (w : Nat) : Option Conn :=
  if c.maxTxData < c.txData then none
  else
    let cap := min w (c.maxTxData - c.txData)
    some { c with txCap := (cap * c.factorNum + (c.factorDen - 1)) / c.factorDen }

/-- `octets::varint_len` (octets/src/lib.rs:826-838) for values below 2^62. -/
def varintLen (v : Nat) : Nat :=
  if v ≤ 63 then 1 else if v ≤ 16383 then 2 else if v ≤ 1073741823 then 4 else 8

/-- `frame::MAX_STREAM_OVERHEAD` (frame.rs:47). -/
abbrev maxStreamOverhead : Nat := 12

/-- `MAX_STREAM_ID` (lib.rs:461). -/
abbrev maxStreamId : Nat := 2 ^ 60

end Conn

/-- What can happen to the streams of a connection. -/
inductive Op where
  /-- frames that arrive -/
  | recvStream (id off : Nat) (data : Bytes) (fin : Bool)
  | recvReset (id code finalSize : Nat)
  | recvStop (id code : Nat)
  | recvMaxData (m : Nat)
  | recvMaxStreamData (id m : Nat)
  | recvMaxStreams (bidi : Bool) (m : Nat)
  /-- the peer's transport parameters become known: limits for new streams,
  `initial_max_data`, `initial_max_streams_bidi`, `initial_max_streams_uni`, and the
  available congestion window -/
  | peerParams (p : StreamLimits) (maxData maxBidi maxUni w : Nat)
  /-- the end of the processing of a packet; `w` is the available congestion window -/
  | recvDone (w : Nat)
  /-- application calls -/
  | send (id : Nat) (data : Bytes) (fin : Bool)
  | recv (id cap : Nat)
  | shutRead (id code : Nat)
  | shutWrite (id code w : Nat)
  | capacity (id : Nat)
  | isWritable (id len : Nat)
  | writableNext
  | readableNext
  | priority (id urgency : Nat) (incremental : Bool)
  /-- parts of building a packet -/
  | outStream (left : Nat)
  | outMaxStreams (bidi fits : Bool)
  | outMaxStreamData (id now rtt : Nat) (fits : Bool)
  | outMaxData (now rtt : Nat) (fits : Bool)
  | outStop (id : Nat) (fits : Bool)
  | outReset (id : Nat) (fits : Bool)
  /-- the packet with the `i`-th frame sent is acknowledged, or declared lost -/
  | acked (i : Nat)
  | lost (i : Nat)
  deriving DecidableEq, Repr

/-- What is observed. -/
inductive Ev where
  /-- the frame was processed -/
  | ok
  /-- the frame refers to a stream that is gone and was ignored -/
  | ignored
  /-- the connection is closed with this error -/
  | closed (e : CErr)
  /-- result of an application call -/
  | n (n : Nat)
  | got (data : Bytes) (fin : Bool)
  | next (id : Option Nat)
  | bool (b : Bool)
  | err (e : QErr)
  /-- frames sent -/
  | sentStream (id off : Nat) (data : Bytes) (fin : Bool)
  | sentMaxStreams (m : Nat)
  | sentMaxStreamData (m : Nat)
  | sentMaxData (m : Nat)
  | sentStop (code : Nat)
  | sentReset (code finalSize : Nat)
  | idle
  | panic
  deriving DecidableEq, Repr

namespace Conn

/-- The connection is closed because of an error while processing a frame
(lib.rs:2842-2850). -/
def close (c : Conn) (e : CErr) : Conn × Ev :=
  match e with
  | .q .panic => ({ c with crashed := true }, .panic)
  | e => ({ c with dead := true }, .closed e)

/-- The thread panics. -/
def die (c : Conn) : Conn × Ev := ({ c with crashed := true }, .panic)

/-- `process_frame`, STREAM (lib.rs:8541-8597). -/
def recvStream (c : Conn) (id off : Nat) (data : Bytes) (fin : Bool) : Conn × Ev :=
  if !isBidi id && isLocal id c.isServer then c.close (.q (.invalidStreamState id))
  else if c.fc.maxData < c.rxData then c.die
  else
    let left := c.fc.maxData - c.rxData
    match c.getOrCreate id false with
    | .error .done => (c, .ignored)
    | .error e => c.close (.q e)
    | .ok (c, s) =>
      let delta := off + data.length - s.recv.len
      if delta > left then c.close (.q .flowControl)
      else
        let wasReadable := s.isReadable
        let wasDraining := s.recv.drain
        match s.recv.write (.mk' data off fin) with
        | (.error e, r) => (c.put id { s with recv := r }).close (.q e)
        | (.ok (), r) =>
          let s := { s with recv := r }
          let c := c.put id s
          let c := if !wasReadable && s.isReadable then c.insertReadable s.key else c
          let c := { c with rxData := c.rxData + delta }
          let c := if wasDraining then { c with fc := c.fc.addConsumed delta } else c
          (c, .ok)

/-- `process_frame`, RESET_STREAM (lib.rs:8364-8418). -/
def recvReset (c : Conn) (id code F : Nat) : Conn × Ev :=
  if !isBidi id && isLocal id c.isServer then c.close (.q (.invalidStreamState id))
  else if c.fc.maxData < c.rxData then c.die
  else
    let left := c.fc.maxData - c.rxData
    match c.getOrCreate id false with
    | .error .done => (c, .ignored)
    | .error e => c.close (.q e)
    | .ok (c, s) =>
      let wasReadable := s.isReadable
      match s.recv.reset code F with
      | (.error e, r) => (c.put id { s with recv := r }).close (.q e)
      | (.ok ret, r) =>
        let s := { s with recv := r }
        let c := c.put id s
        if ret.maxDataDelta > left then c.close (.q .flowControl)
        else
          let c := if !wasReadable && s.isReadable then c.insertReadable s.key else c
          let c := { c with rxData := c.rxData + ret.maxDataDelta }
          ({ c with fc := c.fc.addConsumed ret.consumed }, .ok)

/-- `process_frame`, STOP_SENDING (lib.rs:8421-8503). -/
def recvStop (c : Conn) (id code : Nat) : Conn × Ev :=
  if !isLocal id c.isServer && !isBidi id then c.close (.q (.invalidStreamState id))
  else
    match c.getOrCreate id false with
    | .error .done => (c, .ignored)
    | .error e => c.close (.q e)
    | .ok (c, s) =>
      let wasWritable := s.isWritable
      let buffered := s.send.bufferedBytes
      match s.send.stop code with
      | .error .panic => c.die
      | .error _ => (c, .ok)
      | .ok (b, finalSize, unsent) =>
        let c := c.put id { s with send := b }
        let c := { c with txData := c.txData - unsent }
        match c.subTxBuffered buffered with
        | none => c.die
        | some c =>
          let c := { c with reset := Assoc.put c.reset id (code, finalSize) }
          let c := if !wasWritable then c.insertWritable s.key else c
          (c, .ok)

/-- `process_frame`, MAX_STREAM_DATA (lib.rs:8605-8649). -/
def recvMaxStreamData (c : Conn) (id m : Nat) : Conn × Ev :=
  if !isBidi id && !isLocal id c.isServer then c.close (.q (.invalidStreamState id))
  else
    match c.getOrCreate id false with
    | .error .done => (c, .ignored)
    | .error e => c.close (.q e)
    | .ok (c, s) =>
      let wasFlushable := s.isFlushable
      let s := { s with send := s.send.updateMaxData m }
      let c := c.put id s
      let c := if s.isFlushable && !wasFlushable then c.insertFlushable s.key else c
      let c := if s.isWritable then c.insertWritable s.key else c
      (c, .ok)

/-- `process_frame`, MAX_STREAMS (lib.rs:8651-8665). -/
def recvMaxStreams (c : Conn) (bidi : Bool) (m : Nat) : Conn × Ev :=
  if m > maxStreamId then c.close .invalidFrame
  else
    let k := c.counts bidi
    (c.setCounts bidi { k with peerMax := max k.peerMax m }, .ok)

/-- `process_peer_transport_params` (lib.rs:7958-8003), the part about streams. It is
called for the parameters remembered from an earlier session (`set_session`) and for
those of the handshake. -/
def peerParams (c : Conn) (p : StreamLimits) (maxData maxBidi maxUni w : Nat) : Conn × Ev :=
  let c := { c with maxTxData := maxData }
  match c.updateTxCap w with
  | none => c.die
  | some c =>
    ({ c with
        bidi := { c.bidi with peerMax := max c.bidi.peerMax maxBidi }
        uni := { c.uni with peerMax := max c.uni.peerMax maxUni }
        peer := p }, .ok)

/-- Blocked streams in `stream_do_send` (lib.rs:6073-6091): whether the stream is limited
by its own flow control is recorded. -/
def sendBlocked (c : Conn) (id : Nat) (s : Stream) (sent capN : Nat) : Stream × Conn :=
  if sent < capN then
    let m := s.send.maxData
    if s.send.blockedAt != some m then
      ({ s with send := { s.send with blockedAt := some m } },
        { c with blocked := Assoc.put c.blocked id m })
    else (s, c)
  else
    ({ s with send := { s.send with blockedAt := none } },
      { c with blocked := Assoc.del c.blocked id })

/-- The queues in `stream_do_send` (lib.rs:6093-6118). -/
def sendQueues (c : Conn) (s : Stream) (wasWritable wasFlushable emptyFin blockedByCap : Bool) : Conn :=
  let c := if (s.isFlushable || emptyFin) && !wasFlushable then c.insertFlushable s.key else c
  if !s.isWritable then c.removeWritable s.key.id
  else if wasWritable && blockedByCap then c.insertWritable s.key
  else c

/-- The end of `stream_do_send` (lib.rs:6073-6148), after `sent` bytes have been
accepted into the buffer `b`. `blocked_at` does not matter for the queues. -/
def sendTail (c : Conn) (id : Nat) (s : Stream) (b : SendBuf) (sent capN : Nat)
    (emptyFin blockedByCap : Bool) : Conn × Ev :=
  let wasWritable := s.isWritable
  let wasFlushable := s.isFlushable
  let (s, c) := c.sendBlocked id { s with send := b } sent capN
  let c := (c.put id s).sendQueues s wasWritable wasFlushable emptyFin blockedByCap
  if c.txCap < sent then c.die
  else
    let c := { c with txCap := c.txCap - sent, txData := c.txData + sent,
                      txBuffered := c.txBuffered + sent }
    if sent = 0 ∧ capN > 0 then (c, .err .done)
    else
      (if s.key.incremental && s.isWritable then (c.removeWritable id).insertWritable s.key else c, .n sent)

/-- `stream_send`: `stream_do_send` (lib.rs:5954-6148) with the write function of
lib.rs:5880-5899. -/
def sendData (c : Conn) (id : Nat) (data : Bytes) (fin : Bool) : Conn × Ev :=
  if !isBidi id && !isLocal id c.isServer then (c, .err (.invalidStreamState id))
  else if c.maxTxData < c.txData then c.die
  else
    let len := data.length
    let c := if c.maxTxData - c.txData < len then { c with blockedLimit := some c.maxTxData } else c
    let cap := c.txCap
    match c.getOrCreate id true with
    | .error e => (c, .err e)
    | .ok (c, s) =>
      match s.send.cap with
      | .error (.streamStopped e) =>
        let c := if s.isComplete && !s.isReadable then c.collect id s else c
        (c, .err (.streamStopped e))
      | .error _ => c.die
      | .ok _ =>
        if cap = 0 ∧ len > 0 then
          (if s.isWritable then c.insertWritable s.key else c, .err .done)
        else
          let (capN, fin, blockedByCap) := if cap < len then (cap, false, true) else (len, fin, false)
          match s.send.write (data.take capN) fin with
          | .error .panic => c.die
          | .error e => (c.removeWritable id, .err e)
          | .ok (b, sent) => c.sendTail id s b sent capN (len == 0 && fin) blockedByCap

/-- `stream_recv`/`stream_discard`: `do_stream_recv` (lib.rs:5766-5856). -/
def recvData (c : Conn) (id cap : Nat) : Conn × Ev :=
  if !isBidi id && isLocal id c.isServer then (c, .err (.invalidStreamState id))
  else
    match c.get id with
    | none => (c, .err (.invalidStreamState id))
    | some s =>
      if !s.isReadable then (c, .err .done)
      else
        match s.recv.emit cap with
        | (.error e, r) =>
          let s := { s with recv := r }
          let c := c.put id s
          let c := if s.isComplete then c.collect id s else c
          (c.removeReadable id, .err e)
        | (.ok (out, fin), r) =>
          let s := { s with recv := r }
          let c := c.put id s
          let c := { c with fc := c.fc.addConsumed out.length }
          match s.recv.almostFull with
          | none => c.die
          | some af =>
            let c := if af then c.insertAlmostFull id else c
            let c := if !s.isReadable then c.removeReadable id else c
            let c := if s.isComplete then c.collect id s else c
            (c, .got out fin)

/-- `stream_shutdown` with `Shutdown::Read` (lib.rs:6219-6257). -/
def shutRead (c : Conn) (id code : Nat) : Conn × Ev :=
  if isLocal id c.isServer && !isBidi id then (c, .err (.invalidStreamState id))
  else
    match c.get id with
    | none => (c, .err .done)
    | some s =>
      match s.recv.shutdown with
      | (.error .panic, r) => (c.put id { s with recv := r }).die
      | (.error e, _) => (c, .err e)
      | (.ok consumed, r) =>
        let s := { s with recv := r }
        let c := c.put id s
        let c := { c with fc := c.fc.addConsumed consumed }
        let c := if !s.recv.isFin then { c with stopped := Assoc.put c.stopped id code } else c
        (c.removeReadable id, .ok)

/-- `stream_shutdown` with `Shutdown::Write` (lib.rs:6219-6242, 6259-6309). -/
def shutWrite (c : Conn) (id code w : Nat) : Conn × Ev :=
  if !isLocal id c.isServer && !isBidi id then (c, .err (.invalidStreamState id))
  else
    match c.get id with
    | none => (c, .err .done)
    | some s =>
      let buffered := s.send.bufferedBytes
      match s.send.shutdownWrite with
      | .error .panic => c.die
      | .error e => (c, .err e)
      | .ok (b, finalSize, unsent) =>
        let c := c.put id { s with send := b }
        let c := { c with txData := c.txData - unsent }
        match c.subTxBuffered buffered with
        | none => c.die
        | some c =>
          match c.updateTxCap w with
          | none => c.die
          | some c =>
            let c := { c with reset := Assoc.put c.reset id (code, finalSize) }
            (c.removeWritable id, .ok)

/-- `stream_capacity` (lib.rs:6330-6354). -/
def capacity (c : Conn) (id : Nat) : Conn × Ev :=
  match c.get id with
  | none => (c, .err (.invalidStreamState id))
  | some s =>
    match s.send.cap with
    | .ok n => (c, .n (min c.txCap n))
    | .error (.streamStopped e) =>
      (if s.isComplete && !s.isReadable then c.collect id s else c, .err (.streamStopped e))
    | .error _ => c.die

/-- `stream_writable` (lib.rs:6492-6533). -/
def isWritable (c : Conn) (id len : Nat) : Conn × Ev :=
  match c.capacity id with
  | (c, .n m) =>
    if m ≥ len then (c, .bool true)
    else
      match c.get id with
      | none => (c, .err (.invalidStreamState id))
      | some s =>
        let s := { s with sendLowat := max 1 len }
        let writable := s.isWritable
        let c := c.put id s
        if c.maxTxData < c.txData then c.die
        else
          let c := if c.maxTxData - c.txData < len then { c with blockedLimit := some c.maxTxData } else c
          match s.send.cap with
          | .error .panic => c.die
          | .error e => (c, .err e)
          | .ok n =>
            if n < len then
              let m := s.send.maxData
              if s.send.blockedAt != some m then
                let c := c.put id { s with send := { s.send with blockedAt := some m } }
                ({ c with blocked := Assoc.put c.blocked id m }, .bool false)
              else (c, .bool false)
            else (if writable then c.insertWritable s.key else c, .bool false)
  | r => r

/-- The search of `stream_writable_next` (lib.rs:6442-6466) along the queue. -/
def nextWritable (c : Conn) : List Key → Option Nat
  | [] => none
  | k :: t =>
    match c.get k.id with
    | none => nextWritable c t
    | some s =>
      match s.send.cap with
      | .error _ => some k.id
      | .ok cap => if min c.txCap cap ≥ s.sendLowat then some k.id else nextWritable c t

/-- `stream_writable_next` (lib.rs:6435-6469). -/
def writableNext (c : Conn) : Conn × Ev :=
  if c.txCap = 0 then (c, .next none)
  else
    match c.nextWritable c.writable with
    | none => (c, .next none)
    | some id => (c.removeWritable id, .next (some id))

/-- `stream_readable_next` (lib.rs:6369-6375). -/
def readableNext (c : Conn) : Conn × Ev :=
  match c.readable with
  | [] => (c, .next none)
  | k :: _ => (c.removeReadable k.id, .next (some k.id))

/-- `stream_priority` (lib.rs:6158-6194). -/
def priority (c : Conn) (id u : Nat) (inc : Bool) : Conn × Ev :=
  match c.getOrCreate id true with
  | .error .done => (c, .ok)
  | .error e => (c, .err e)
  | .ok (c, s) =>
    if s.key.urgency = u ∧ s.key.incremental = inc then (c, .ok)
    else
      let k : Key := { urgency := u, incremental := inc, id }
      ((c.put id { s with key := k }).updatePriority k, .ok)

/-- The loop over the flushable queue in `send_single` (lib.rs:5180-5285) without the
`fuzzing` feature: a single STREAM frame is sent for the first stream that is not
stopped and whose frame header fits into the `left` bytes. Every iteration but the last
removes the head of the queue, so its length bounds their number. -/
def outStreamLoop (left : Nat) : Nat → Conn → Conn × Ev
  | 0, c => (c, .idle)
  | fuel + 1, c =>
    match c.flushable with
    | [] => (c, .idle)
    | k :: _ =>
      match c.get k.id with
      | none => outStreamLoop left fuel (c.removeFlushable k.id)
      | some s =>
        if s.send.isStopped then outStreamLoop left fuel (c.removeFlushable k.id)
        else
          let off := s.send.offFront
          let hdr := 1 + varintLen k.id + varintLen off + 2
          if left < hdr then outStreamLoop left fuel (c.removeFlushable k.id)
          else
            match s.send.emit (left - hdr) with
            | .error _ => c.die
            | .ok (b, out, fin) =>
              let s := { s with send := b }
              let c := c.put k.id s
              let c := { c with frames := c.frames ++ [Frame.stream k.id off out.length fin] }
              let c :=
                if !s.isFlushable then c.removeFlushable k.id
                else if s.key.incremental then (c.removeFlushable k.id).insertFlushable s.key
                else c
              match c.subTxBuffered out.length with
              | none => c.die
              | some c => (c, .sentStream k.id off out fin)

/-- The STREAM frame part of `send_single` (lib.rs:5173-5286). -/
def outStream (c : Conn) (left : Nat) : Conn × Ev :=
  if left > maxStreamOverhead then outStreamLoop left c.flushable.length c else (c, .idle)

/-- `should_update_max_streams_bidi`/`_uni` (stream/mod.rs:673-692). -/
def shouldUpdateMaxStreams (k : Counts) : Bool :=
  k.localMaxNext != k.localMax && decide (k.localMax - k.peerOpened ≤ k.initial / 2)

/-- MAX_STREAMS in `send_single` (lib.rs:4723-4755). -/
def outMaxStreams (c : Conn) (bidi fits : Bool) : Conn × Ev :=
  let k := c.counts bidi
  let flag := if bidi then c.shouldSendMaxStreamsBidi else c.shouldSendMaxStreamsUni
  if shouldUpdateMaxStreams k || flag then
    if fits then
      let c := c.setCounts bidi { k with localMax := k.localMaxNext }
      let c := if bidi then { c with shouldSendMaxStreamsBidi := false }
        else { c with shouldSendMaxStreamsUni := false }
      ({ c with frames := c.frames ++ [.maxStreams bidi] }, .sentMaxStreams k.localMaxNext)
    else (c, .idle)
  else (c, .idle)

/-- MAX_STREAM_DATA in `send_single` (lib.rs:4815-4856), for one stream.
`CONNECTION_WINDOW_FACTOR` is 1.5 (lib.rs:489). -/
def outMaxStreamData (c : Conn) (id now rtt : Nat) (fits : Bool) : Conn × Ev :=
  if !c.almostFull.contains id then (c, .idle)
  else
    match c.get id with
    | none => ({ c with almostFull := c.almostFull.filter (· != id) }, .idle)
    | some s =>
      match s.recv.almostFull with
      | none => c.die
      | some af =>
        let r := if af then s.recv.autotuneWindow now rtt else s.recv
        let c := c.put id { s with recv := r }
        if fits then
          let c := c.put id { s with recv := r.updateMaxData now }
          ({ c with
              almostFull := c.almostFull.filter (· != id)
              fc := c.fc.ensureWindowLowerBound (r.flowControl.window * 3 / 2)
              frames := c.frames ++ [.maxStreamData id] },
            .sentMaxStreamData r.flowControl.maxDataNext)
        else (c, .idle)

/-- MAX_DATA in `send_single` (lib.rs:4858-4884). -/
def outMaxData (c : Conn) (now rtt : Nat) (fits : Bool) : Conn × Ev :=
  match c.fc.shouldUpdateMaxData with
  | none => c.die
  | some upd =>
    let c :=
      if upd && decide (c.fc.maxData < c.fc.maxDataNext) then
        { c with fc := c.fc.autotuneWindow now rtt, shouldSendMaxData := true }
      else c
    if c.shouldSendMaxData && fits then
      ({ c with
          shouldSendMaxData := false
          fc := c.fc.updateMaxData now
          frames := c.frames ++ [.maxData] }, .sentMaxData c.fc.maxDataNext)
    else (c, .idle)

/-- STOP_SENDING in `send_single` (lib.rs:4886-4905), for one stream. -/
def outStop (c : Conn) (id : Nat) (fits : Bool) : Conn × Ev :=
  match Assoc.get c.stopped id with
  | none => (c, .idle)
  | some code =>
    if fits then
      ({ c with stopped := Assoc.del c.stopped id, frames := c.frames ++ [.stop id code] },
        .sentStop code)
    else (c, .idle)

/-- RESET_STREAM in `send_single` (lib.rs:4907-4927), for one stream. -/
def outReset (c : Conn) (id : Nat) (fits : Bool) : Conn × Ev :=
  match Assoc.get c.reset id with
  | none => (c, .idle)
  | some (code, F) =>
    if fits then
      ({ c with reset := Assoc.del c.reset id, frames := c.frames ++ [.reset id code F] },
        .sentReset code F)
    else (c, .idle)

/-- The collection after an acknowledged frame (lib.rs:3647-3656, 3704-3713). -/
def collectAcked (c : Conn) (id : Nat) (s : Stream) : Conn :=
  if s.isComplete && !s.isReadable && !(linked c.writable id && s.send.isStopped) then
    c.collect id s
  else c

/-- Acknowledged frames (lib.rs:3592-3715). -/
def acked (c : Conn) (i : Nat) : Conn × Ev :=
  match c.frames[i]? with
  | some (.stream id off len _) =>
    match c.get id with
    | none => (c, .ok)
    | some s =>
      match s.send.ackAndDrop off len with
      | .error _ => c.die
      | .ok (b, dropped) =>
        let s := { s with send := b }
        let c := (c.put id s).collectAcked id s
        match c.subTxBuffered dropped with
        | none => c.die
        | some c => (c, .ok)
  | some (.reset id _ _) =>
    match c.get id with
    | none => (c, .ok)
    | some s => (c.collectAcked id s, .ok)
  | _ => (c, .ok)

/-- Lost frames (lib.rs:4144-4262). -/
def lost (c : Conn) (i : Nat) : Conn × Ev :=
  match c.frames[i]? with
  | some (.stream id off len fin) =>
    match c.get id with
    | none => (c, .ok)
    | some s =>
      if s.send.isStopped then (c, .ok)
      else
        let wasFlushable := s.isFlushable
        let emptyFin := len == 0 && fin
        match s.send.retransmit off len with
        | .error _ => c.die
        | .ok (b, n) =>
          let s := { s with send := b }
          let c := c.put id s
          let c := if (s.isFlushable || emptyFin) && !wasFlushable then c.insertFlushable s.key else c
          ({ c with txBuffered := c.txBuffered + n }, .ok)
  | some (.reset id code F) => ({ c with reset := Assoc.put c.reset id (code, F) }, .ok)
  | some (.stop id code) =>
    match c.get id with
    | none => (c, .ok)
    | some s =>
      if !s.recv.isFin then ({ c with stopped := Assoc.put c.stopped id code }, .ok) else (c, .ok)
  | some (.maxStreamData id) => if (c.get id).isSome then (c.insertAlmostFull id, .ok) else (c, .ok)
  | some .maxData => ({ c with shouldSendMaxData := true }, .ok)
  | some (.maxStreams true) => ({ c with shouldSendMaxStreamsBidi := true }, .ok)
  | some (.maxStreams false) => ({ c with shouldSendMaxStreamsUni := true }, .ok)
  | none => (c, .ok)

/-- Operations that need a connection that is not being closed. -/
def Op.needsAlive : Op → Bool
  | .send .. | .recv .. | .shutRead .. | .shutWrite .. | .capacity .. | .isWritable ..
  | .writableNext | .readableNext | .priority .. => false
  | _ => true

/-- One operation. -/
def step (c : Conn) (op : Op) : Conn × Ev :=
  if c.crashed || (c.dead && Op.needsAlive op) then (c, .idle)
  else
    match op with
    | .recvStream id off data fin => c.recvStream id off data fin
    | .recvReset id code F => c.recvReset id code F
    | .recvStop id code => c.recvStop id code
    | .recvMaxData m => ({ c with maxTxData := max c.maxTxData m }, .ok)
    | .recvMaxStreamData id m => c.recvMaxStreamData id m
    | .recvMaxStreams bidi m => c.recvMaxStreams bidi m
    | .peerParams p d b u w => c.peerParams p d b u w
    | .recvDone w =>
      match c.updateTxCap w with
      | none => c.die
      | some c => (c, .ok)
    | .send id data fin => c.sendData id data fin
    | .recv id cap => c.recvData id cap
    | .shutRead id code => c.shutRead id code
    | .shutWrite id code w => c.shutWrite id code w
    | .capacity id => c.capacity id
    | .isWritable id len => c.isWritable id len
    | .writableNext => c.writableNext
    | .readableNext => c.readableNext
    | .priority id u inc => c.priority id u inc
    | .outStream left => c.outStream left
    | .outMaxStreams bidi fits => c.outMaxStreams bidi fits
    | .outMaxStreamData id now rtt fits => c.outMaxStreamData id now rtt fits
    | .outMaxData now rtt fits => c.outMaxData now rtt fits
    | .outStop id fits => c.outStop id fits
    | .outReset id fits => c.outReset id fits
    | .acked i => c.acked i
    | .lost i => c.lost i

/-- Runs a history; every operation is recorded together with what was observed. -/
def run : Conn → List Op → Conn × List (Op × Ev)
  | c, [] => (c, [])
  | c, op :: ops =>
    let (c1, e) := c.step op
    let (c2, es) := run c1 ops
    (c2, (op, e) :: es)

/-- The local configuration. -/
structure Config where
  isServer : Bool := false
  loc : StreamLimits := {}
  maxData : Nat := 0
  maxWindow : Nat := 0
  maxStreamsBidi : Nat := 0
  maxStreamsUni : Nat := 0
  maxStreamWindow : Nat := 0
  factorNum : Nat := 1
  factorDen : Nat := 1
  deriving DecidableEq, Repr

/-- A new connection (`Connection::with_tls`, lib.rs:2105-2190; `StreamMap::new`,
stream/mod.rs:206-220). -/
def start (g : Config) : Conn :=
  { isServer := g.isServer, loc := g.loc, maxStreamWindow := g.maxStreamWindow,
    bidi := { localMax := g.maxStreamsBidi, localMaxNext := g.maxStreamsBidi, initial := g.maxStreamsBidi }
    uni := { localMax := g.maxStreamsUni, localMaxNext := g.maxStreamsUni, initial := g.maxStreamsUni }
    fc := .new g.maxData g.maxData g.maxWindow
    factorNum := g.factorNum, factorDen := g.factorDen }

end Conn
end Verif.Conn
