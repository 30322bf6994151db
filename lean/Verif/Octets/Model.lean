/-!
Model of the `octets` crate (`/repo/octets/src/lib.rs`): cursors over byte
buffers, fixed-width big-endian integers and QUIC variable-length integers.
-/

namespace Verif

-- Decidable equality of results, used only in concrete examples.
deriving instance DecidableEq for Except

/-- A byte string. -/
abbrev Bytes := List UInt8

/-- Outcome of an `octets` operation that did not produce a value.
`tooShort` is `BufferTooShortError` (octets/src/lib.rs:40-44); `panic` stands
for a Rust panic (`unreachable!()`, `panic!`, slice index out of bounds). -/
inductive OErr where
  | tooShort
  | panic
  deriving DecidableEq, Repr

/-- Big-endian value of a byte string: `<$ty>::from_be` on the copied bytes
(octets/src/lib.rs:66-86). -/
def beVal (bs : Bytes) : Nat := bs.foldl (fun acc b => acc * 256 + b.toNat) 0

/-- The `n` low-order bytes of `v`, most significant first: `<$ty>::to_be(v)`
followed by copying the last `n` bytes (octets/src/lib.rs:98-121). High bits are
dropped, like the Rust `as` casts. -/
def beBytes : Nat → Nat → Bytes
  | 0, _ => []
  | n + 1, v => UInt8.ofNat (v / 256 ^ n) :: beBytes n v

/-- `Octets`/`OctetsMut` (octets/src/lib.rs:134-138, 407-410): a buffer and an
offset. Lifetimes and the distinction between shared and exclusive borrow are
not modelled. -/
structure Cur where
  buf : Bytes
  off : Nat
  deriving DecidableEq, Repr

namespace Cur

/-- `with_slice` (octets/src/lib.rs:145-147, 417-419). -/
def withSlice (buf : Bytes) : Cur := { buf := buf, off := 0 }

/-- `cap` (octets/src/lib.rs:367-369). Natural subtraction: all operations keep
`off ≤ buf.length` (`Cur.WF`), so no underflow. -/
def cap (c : Cur) : Nat := c.buf.length - c.off

/-- `as_ref` (octets/src/lib.rs:398-400). -/
def rest (c : Cur) : Bytes := c.buf.drop c.off

/-- Offset within the buffer. -/
def WF (c : Cur) : Prop := c.off ≤ c.buf.length

/-- `peek_u!` (octets/src/lib.rs:66-86). -/
def peekU (c : Cur) (n : Nat) : Except OErr Nat :=
  if c.off > c.buf.length then .error .panic
  else if (c.buf.drop c.off).length < n then .error .tooShort
  else .ok (beVal ((c.buf.drop c.off).take n))

/-- `get_u!` (octets/src/lib.rs:88-96): `peek_u!` contains the early `return`,
so the offset only moves on success. -/
def getU (c : Cur) (n : Nat) : Except OErr Nat × Cur :=
  match c.peekU n with
  | .ok v => (.ok v, { c with off := c.off + n })
  | .error e => (.error e, c)

/-- Overwrite `buf[off..off+len]`. -/
def overwrite (buf : Bytes) (off : Nat) (bs : Bytes) : Bytes :=
  buf.take off ++ bs ++ buf.drop (off + bs.length)

/-- `put_u!` (octets/src/lib.rs:98-121). -/
def putU (c : Cur) (n v : Nat) : Except OErr Unit × Cur :=
  if c.buf.length < c.off + n then (.error .tooShort, c)
  else (.ok (), { buf := overwrite c.buf c.off (beBytes n v), off := c.off + n })

/-- `get_bytes` (octets/src/lib.rs:213-226, 557-570). The returned sub-cursor
always starts at offset 0, so it is modelled by its bytes. -/
def getBytes (c : Cur) (len : Nat) : Except OErr Bytes × Cur :=
  if c.cap < len then (.error .tooShort, c)
  else (.ok ((c.buf.drop c.off).take len), { c with off := c.off + len })

/-- `put_bytes` (octets/src/lib.rs:643-660). -/
def putBytes (c : Cur) (v : Bytes) : Except OErr Unit × Cur :=
  if c.cap < v.length then (.error .tooShort, c)
  else if v.length = 0 then (.ok (), c)
  else (.ok (), { buf := overwrite c.buf c.off v, off := c.off + v.length })

/-- `skip` (octets/src/lib.rs:356-364). -/
def skip (c : Cur) (n : Nat) : Except OErr Unit × Cur :=
  if n > c.cap then (.error .tooShort, c) else (.ok (), { c with off := c.off + n })

/-- `rewind` (octets/src/lib.rs:326-334). -/
def rewind (c : Cur) (n : Nat) : Except OErr Unit × Cur :=
  if c.off < n then (.error .tooShort, c) else (.ok (), { c with off := c.off - n })

end Cur

/-- `MAX_VAR_INT` (octets/src/lib.rs:34-38). -/
def maxVarInt : Nat := 4611686018427387903

/-- `varint_len` (octets/src/lib.rs:826-838); `none` is `unreachable!()`. -/
def varintLen (v : Nat) : Option Nat :=
  if v ≤ 63 then some 1
  else if v ≤ 16383 then some 2
  else if v ≤ 1073741823 then some 4
  else if v ≤ maxVarInt then some 8
  else none

/-- `varint_parse_len` (octets/src/lib.rs:841-849). The `unreachable!()` arm is
`0`; `first >> 6` is always below four (`varintParseLen_cases`). -/
def varintParseLen (first : UInt8) : Nat :=
  match (first >>> 6).toNat with
  | 0 => 1
  | 1 => 2
  | 2 => 4
  | 3 => 8
  | _ => 0

namespace Cur

/-- `get_varint` (octets/src/lib.rs:187-209, 489-511). -/
def getVarint (c : Cur) : Except OErr Nat × Cur :=
  match c.peekU 1 with
  | .error e => (.error e, c)
  | .ok first =>
    let len := varintParseLen (UInt8.ofNat first)
    if len > c.cap then (.error .tooShort, c)
    else
      match len with
      | 1 => c.getU 1
      | 2 => match c.getU 2 with
             | (.ok v, c') => (.ok (v &&& 0x3fff), c')
             | r => r
      | 4 => match c.getU 4 with
             | (.ok v, c') => (.ok (v &&& 0x3fffffff), c')
             | r => r
      | 8 => match c.getU 8 with
             | (.ok v, c') => (.ok (v &&& 0x3fffffffffffffff), c')
             | r => r
      | _ => (.error .panic, c)

/-- `buf[0] |= mask` on the slice just written, i.e. at position `off - len` of
the buffer (octets/src/lib.rs:521-553). -/
def orAt (buf : Bytes) (i : Nat) (mask : UInt8) : Bytes := buf.modify i (· ||| mask)

/-- `put_varint_with_len` (octets/src/lib.rs:521-553). -/
def putVarintWithLen (c : Cur) (v len : Nat) : Except OErr Unit × Cur :=
  if c.cap < len then (.error .tooShort, c)
  else
    let tag (n : Nat) (mask : UInt8) : Except OErr Unit × Cur :=
      match c.putU n v with
      | (.ok (), c') => (.ok (), { c' with buf := orAt c'.buf c.off mask })
      | r => r
    match len with
    | 1 => c.putU 1 v
    | 2 => tag 2 0x40
    | 4 => tag 4 0x80
    | 8 => tag 8 0xc0
    | _ => (.error .panic, c)

/-- `put_varint` (octets/src/lib.rs:515-517). -/
def putVarint (c : Cur) (v : Nat) : Except OErr Unit × Cur :=
  match varintLen v with
  | none => (.error .panic, c)
  | some len => c.putVarintWithLen v len

end Cur
end Verif
