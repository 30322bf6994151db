import Verif.Octets.Model

/-!
The rest of the interface of `Octets` and `OctetsMut` (`/repo/octets/src/lib.rs`), and calls of it one after
another. Reads of both types are the same code; writes exist for `OctetsMut` only. Sub-buffers start at offset
zero and are modelled by their bytes; writing through a mutable sub-buffer is not modelled.
-/

namespace Verif

namespace Cur

/-- `get_bytes_with_u8_length` (octets/src/lib.rs:230-233, 591-594) and `get_bytes_with_u16_length` (238-241, 599-602). -/
def getBytesWithU (c : Cur) (n : Nat) : Except OErr Bytes × Cur :=
  match c.getU n with
  | (.ok len, c) => c.getBytes len
  | (.error e, c) => (.error e, c)

/-- `get_bytes_with_varint_length` (octets/src/lib.rs:246-249, 607-610). -/
def getBytesWithVarint (c : Cur) : Except OErr Bytes × Cur :=
  match c.getVarint with
  | (.ok len, c) => c.getBytes len
  | (.error e, c) => (.error e, c)

/-- `peek_bytes` (octets/src/lib.rs:312-323, 614-625) and `slice` (337-343, 752-758). -/
def peekBytes (c : Cur) (len : Nat) : Except OErr Bytes :=
  if c.cap < len then .error .tooShort else .ok ((c.buf.drop c.off).take len)

/-- `slice_last` (octets/src/lib.rs:346-353, 761-768). -/
def sliceLast (c : Cur) (len : Nat) : Except OErr Bytes :=
  if len > c.cap then .error .tooShort else .ok (c.buf.drop (c.buf.length - len))

/-- `split_at` (octets/src/lib.rs:735-748). -/
def splitAt (c : Cur) (off : Nat) : Except OErr (Bytes × Bytes) :=
  if c.buf.length < off then .error .tooShort else .ok (c.buf.take off, c.buf.drop off)

/-- A call. -/
inductive Op where
  | getU (n : Nat)
  | peekU (n : Nat)
  | getVarint
  | getBytes (n : Nat)
  | getBytesWithU (n : Nat)
  | getBytesWithVarint
  | peekBytes (n : Nat)
  | sliceLast (n : Nat)
  | splitAt (n : Nat)
  | skip (n : Nat)
  | rewind (n : Nat)
  | putU (n v : Nat)
  | putVarint (v : Nat)
  | putVarintWithLen (v n : Nat)
  | putBytes (v : Bytes)

/-- What a call returns. -/
inductive Out where
  | unit
  | num (v : Nat)
  | bytes (v : Bytes)
  | two (a b : Bytes)
  deriving DecidableEq, Repr

/-- The result of a call as data. -/
def out {α : Type} (f : α → Out) (r : Except OErr α × Cur) : Except OErr Out × Cur := (r.1.map f, r.2)

def step (c : Cur) : Op → Except OErr Out × Cur
  | .getU n => out .num (c.getU n)
  | .peekU n => out .num (c.peekU n, c)
  | .getVarint => out .num c.getVarint
  | .getBytes n => out .bytes (c.getBytes n)
  | .getBytesWithU n => out .bytes (c.getBytesWithU n)
  | .getBytesWithVarint => out .bytes c.getBytesWithVarint
  | .peekBytes n => out .bytes (c.peekBytes n, c)
  | .sliceLast n => out .bytes (c.sliceLast n, c)
  | .splitAt n => out (fun p => .two p.1 p.2) (c.splitAt n, c)
  | .skip n => out (fun _ => .unit) (c.skip n)
  | .rewind n => out (fun _ => .unit) (c.rewind n)
  | .putU n v => out (fun _ => .unit) (c.putU n v)
  | .putVarint v => out (fun _ => .unit) (c.putVarint v)
  | .putVarintWithLen v n => out (fun _ => .unit) (c.putVarintWithLen v n)
  | .putBytes v => out (fun _ => .unit) (c.putBytes v)

/-- The results of calls, and the buffer after them. -/
def run (c : Cur) : List Op → List (Except OErr Out) × Cur
  | [] => ([], c)
  | o :: l => ((c.step o).1 :: ((c.step o).2.run l).1, ((c.step o).2.run l).2)

end Cur
end Verif
