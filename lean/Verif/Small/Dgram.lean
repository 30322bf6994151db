/-!
Model of the DATAGRAM queues (`/repo/quiche/src/dgram.rs`) and of their use by a
connection (`/repo/quiche/src/lib.rs`). The type of the buffers is a parameter, as in the
code; `size` is the length of their contents (`as_ref().len()`).
-/

namespace Verif.Dgram

variable {α : Type}

/-- `DatagramQueue` (dgram.rs:34-39). -/
structure Queue (α : Type) where
  queue : List α := []
  maxLen : Nat
  bytes : Nat := 0
  deriving DecidableEq, Repr

inductive Err where
  | done
  | bufferTooShort
  | invalidState
  deriving DecidableEq, Repr

namespace Queue

/-- `DatagramQueue::is_full` (dgram.rs:102-104). -/
def isFull (q : Queue α) : Bool := q.queue.length == q.maxLen

/-- `DatagramQueue::push` (dgram.rs:50-59). -/
def push (size : α → Nat) (q : Queue α) (d : α) : Except Err (Queue α) :=
  if q.isFull then .error .done
  else .ok { q with bytes := q.bytes + size d, queue := q.queue ++ [d] }

/-- `DatagramQueue::peek_front_len` (dgram.rs:61-63). -/
def peekLen (size : α → Nat) (q : Queue α) : Option Nat := q.queue.head?.map size

/-- `DatagramQueue::pop` (dgram.rs:81-89). -/
def pop (size : α → Nat) (q : Queue α) : Option (α × Queue α) :=
  match q.queue with
  | [] => none
  | d :: t => some (d, { q with queue := t, bytes := q.bytes - size d })

/-- `DatagramQueue::purge` (dgram.rs:95-100). -/
def purge (size : α → Nat) (q : Queue α) (f : α → Bool) : Queue α :=
  let left := q.queue.filter fun d => !f d
  { q with queue := left, bytes := left.foldl (fun total d => total + size d) 0 }

end Queue

/-- `Connection::dgram_send_buf` (lib.rs:6911-6933); `maxPayload` is the result of
`dgram_max_writable_len`. -/
def dgramSend (size : α → Nat) (q : Queue α) (maxPayload : Option Nat) (d : α) : Except Err (Queue α) :=
  match maxPayload with
  | none => .error .invalidState
  | some m => if size d > m then .error .bufferTooShort else q.push size d

/-- A received DATAGRAM frame (lib.rs:8818-8832). -/
def recvFrame (size : α → Nat) (q : Queue α) (enabled : Bool) (d : α) : Except Err (Queue α) :=
  if enabled = false then .error .invalidState
  else
    let q := if q.isFull then
        match q.pop size with
        | none => q
        | some (_, q) => q
      else q
    q.push size d

/-- `Connection::dgram_recv` (lib.rs:6782-6796) with a buffer of `len` bytes: the frame
is removed even if it does not fit. -/
def dgramRecv (size : α → Nat) (q : Queue α) (len : Nat) : Except Err α × Queue α :=
  match q.pop size with
  | none => (.error .done, q)
  | some (d, q) => if size d > len then (.error .bufferTooShort, q) else (.ok d, q)

/-- The loop in `send_single` that packs DATAGRAM frames (lib.rs:5099-5169): `left` bytes
are left in the packet. Returns the frames packed, the bytes left and the queue. The first
argument bounds the rounds; each one takes a frame off the queue. -/
def packLoop (size : α → Nat) (maxPayload : Nat) : Nat → Queue α → Nat → List α × Nat × Queue α
  | 0, q, left => ([], left, q)
  | n + 1, q, left =>
    match q.peekLen size with
    | none => ([], left, q)
    | some len =>
      if 1 + 2 + len ≤ left then
        match q.pop size with
        | none => ([], left, q)
        | some (d, q) =>
          let r := packLoop size maxPayload n q (left - (1 + 2 + len))
          (d :: r.1, r.2)
      else if len > maxPayload then
        match q.pop size with
        | none => ([], left, q)
        | some (_, q) => packLoop size maxPayload n q left
      else ([], left, q)

def pack (size : α → Nat) (maxPayload : Nat) (q : Queue α) (left : Nat) : List α × Nat × Queue α :=
  packLoop size maxPayload q.queue.length q left

end Verif.Dgram
