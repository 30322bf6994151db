import Verif.Octets.Model
/-!
Model of batched datagram input and output (`/repo/datagram-socket/src/mmsg.rs`,
`/repo/datagram-socket/src/datagram.rs`).

The operating system is modelled by what it has for us: a queue of datagrams and
pending errors on the receiving side, a list of outcomes of attempts on the
sending side. `recvmmsg(2)` and `sendmmsg(2)` follow their manual pages: they
stop at the first datagram that cannot be had; if there was one before, they
return the count. A pending error that ends a `recvmmsg` after at least one
datagram is kept for the next call. The kernel truncates a datagram that is
longer than its buffer. `errno` is the thread's variable.

Not modelled: partially sent datagrams, signals, raw pointers.
-/

namespace Verif.Batch

/-- Bytes of a datagram. -/
abbrev Dg := List Nat

/-- `EAGAIN`, which is `io::ErrorKind::WouldBlock`. -/
abbrev eagain : Nat := 11

/-- What is next on the receiving side of a socket. -/
inductive Item where
  | dgram (d : Dg)
  | fault (errno : Nat)
  deriving DecidableEq, Repr

/-- `ReadBuf`: what is filled, and the room that is left. -/
structure RBuf where
  filled : Dg
  room : Nat
  deriving DecidableEq, Repr

/-- The datagram as the kernel puts it into the unfilled part; `advance`
(datagram-socket/src/mmsg.rs:85-90). -/
def RBuf.take (b : RBuf) (d : Dg) : RBuf :=
  { filled := b.filled ++ d.take b.room, room := b.room - (d.take b.room).length }

/-- The kernel's `recvmmsg`, once `got` says whether a datagram was received:
the buffers, the number filled, the error that ended it, and the queue. -/
def kRecv (got : Bool) : List RBuf → List Item → List RBuf × Nat × Option Nat × List Item
  | [], q => ([], 0, none, q)
  | b :: bs, [] => (b :: bs, 0, if got then none else some eagain, [])
  | b :: bs, .fault e :: q =>
    if got then (b :: bs, 0, none, .fault e :: q) else (b :: bs, 0, some e, q)
  | b :: bs, .dgram d :: q =>
    let (bs', n, err, q') := kRecv true bs q
    (b.take d :: bs', n + 1, err, q')

/-- Result of a batch: the buffers, the count so far, `errno`, the queue. -/
structure Recvd where
  bufs : List RBuf
  ret : Nat
  errno : Nat
  queue : List Item
  deriving DecidableEq, Repr

/-- `MAX_MMSG` (datagram-socket/src/mmsg.rs:37). -/
abbrev maxMmsg : Nat := 16

/-- The loop of `recvmmsg` over chunks (datagram-socket/src/mmsg.rs:45-97).
`fuel` is an upper bound on the number of chunks. -/
def recvLoop : Nat → List RBuf → Nat → List Item → Recvd
  | 0, bufs, errno, q => ⟨bufs, 0, errno, q⟩
  | fuel + 1, bufs, errno, q =>
    if bufs = [] then ⟨[], 0, errno, q⟩
    else
      match kRecv false (bufs.take maxMmsg) q with
      | (_, _, some e, q') => ⟨bufs, 0, e, q'⟩
      | (c, n, none, q') =>
        if n < maxMmsg then ⟨c ++ bufs.drop maxMmsg, n, errno, q'⟩
        else
          let r := recvLoop fuel (bufs.drop maxMmsg) errno q'
          { r with bufs := c ++ r.bufs, ret := n + r.ret }

/-- The result of `recvmmsg` and `sendmmsg`: the count, or `last_os_error`
(datagram-socket/src/mmsg.rs:99-103, 154-158). -/
def result (ret errno : Nat) : Except Nat Nat :=
  if ret = 0 then .error errno else .ok ret

/-- `recvmmsg` (datagram-socket/src/mmsg.rs:39-103). -/
def recvmmsg (bufs : List RBuf) (errno : Nat) (q : List Item) : Except Nat Nat × Recvd :=
  let r := recvLoop bufs.length bufs errno q
  (result r.ret r.errno, r)

/-- Outcome of an attempt to send one datagram; at the end of the list the
socket blocks. -/
inductive Att where
  | ok
  | err (errno : Nat)
  deriving DecidableEq, Repr

/-- The kernel's `sendmmsg`: what was sent, the error that ended it, and the
outcomes that are left. -/
def kSend : List Dg → List Att → List Dg × Option Nat × List Att
  | [], s => ([], none, s)
  | _ :: _, [] => ([], some eagain, [])
  | _ :: _, .err e :: s => ([], some e, s)
  | d :: ds, .ok :: s =>
    let (sent, e, s') := kSend ds s
    (d :: sent, e, s')

/-- Result of sending a batch: what was sent, `errno`, the outcomes left. -/
structure Sent where
  sent : List Dg
  errno : Nat
  script : List Att
  deriving DecidableEq, Repr

/-- The loop of `sendmmsg` over chunks (datagram-socket/src/mmsg.rs:112-152). -/
def sendLoop : Nat → List Dg → Nat → List Att → Sent
  | 0, _, errno, s => ⟨[], errno, s⟩
  | fuel + 1, bufs, errno, s =>
    if bufs = [] then ⟨[], errno, s⟩
    else
      match kSend (bufs.take maxMmsg) s with
      | ([], some e, s') => ⟨[], e, s'⟩
      | (sent, _, s') =>
        if sent.length < maxMmsg then ⟨sent, errno, s'⟩
        else
          let r := sendLoop fuel (bufs.drop maxMmsg) errno s'
          { r with sent := sent ++ r.sent }

/-- `sendmmsg` (datagram-socket/src/mmsg.rs:105-158). -/
def sendmmsg (bufs : List Dg) (errno : Nat) (s : List Att) : Except Nat Nat × Sent :=
  let r := sendLoop bufs.length bufs errno s
  (result r.sent.length r.errno, r)

/-- `Poll<io::Result<usize>>`. -/
inductive Poll where
  | ready (r : Except Nat Nat)
  | pending
  deriving DecidableEq, Repr

/-- A socket of the runtime: what tokio believes about readiness, the queue, and
`errno`. -/
structure Sock where
  ready : Bool
  queue : List Item
  errno : Nat
  deriving DecidableEq, Repr

/-- `poll_recvmmsg!` (datagram-socket/src/mmsg.rs:160-176). When the attempt
would block, `try_io` clears the readiness and the loop comes round to
`poll_recv_ready`, which is then pending. -/
def pollRecv (s : Sock) (bufs : List RBuf) : Poll × List RBuf × Sock :=
  if s.ready then
    let (r, x) := recvmmsg bufs s.errno s.queue
    if r = .error eagain then
      (.pending, x.bufs, { ready := false, queue := x.queue, errno := x.errno })
    else (.ready r, x.bufs, { s with queue := x.queue, errno := x.errno })
  else (.pending, bufs, s)

/-- Something arrives; the runtime is told. -/
def arrive (s : Sock) (i : Item) : Sock := { s with queue := s.queue ++ [i], ready := true }

/-- `poll_recv` of a single datagram: the buffer and the queue. -/
def poll1 (b : RBuf) : List Item → Option (Except Nat RBuf) × List Item
  | [] => (none, [])
  | .fault e :: q => (some (.error e), q)
  | .dgram d :: q => (some (.ok (b.take d)), q)

/-- The default `poll_recv_many` (datagram-socket/src/datagram.rs:348-367);
`read` datagrams so far. -/
def recvMany (read : Nat) : List RBuf → List Item → Poll × List RBuf × List Item
  | [], q => (.ready (.ok read), [], q)
  | b :: bs, q =>
    match poll1 b q with
    | (some (.ok b'), q') =>
      let (p, bs', q'') := recvMany (read + 1) bs q'
      (p, b' :: bs', q'')
    | (some (.error e), q') => (.ready (.error e), b :: bs, q')
    | (none, q') => (if read = 0 then .pending else .ready (.ok read), b :: bs, q')

/-- The default `poll_recv_datagrams` (datagram-socket/src/datagram.rs:75-98):
at most `limit` more, `i` so far; what is pushed to the vector. -/
def recvDgrams (i : Nat) : Nat → List Item → Poll × List Dg × List Item
  | 0, q => (.ready (.ok i), [], q)
  | _ + 1, [] => (if i > 0 then .ready (.ok i) else .pending, [], [])
  | _ + 1, .fault e :: q => (if i > 0 then .ready (.ok i) else .ready (.error e), [], q)
  | limit + 1, .dgram d :: q =>
    let (p, v, q') := recvDgrams (i + 1) limit q
    (p, d :: v, q')

/-- The default `poll_send_many` (datagram-socket/src/datagram.rs:192-216):
`sent` so far; what is sent. -/
def sendMany (sent : Nat) : List Dg → List Att → Poll × List Dg × List Att
  | [], s => (.ready (.ok sent), [], s)
  | _ :: _, [] => (if sent = 0 then .pending else .ready (.ok sent), [], [])
  | _ :: _, .err e :: s => (if sent = 0 then .ready (.error e) else .ready (.ok sent), [], s)
  | d :: ds, .ok :: s =>
    let (p, v, s') := sendMany (sent + 1) ds s
    (p, d :: v, s')

end Verif.Batch
