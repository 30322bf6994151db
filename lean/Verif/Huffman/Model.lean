import Verif.Octets.Model
import Verif.Huffman.Table

/-!
Model of the Huffman coding of the `octets` crate (`/repo/octets/src/lib.rs`). A `u64`
is a `Nat` below 2^64; shifts to the left drop the bits above, as in Rust.
-/

namespace Verif.Huffman

/-- `u8::to_ascii_lowercase`. -/
def lower (b : UInt8) : UInt8 := if 65 ≤ b ∧ b ≤ 90 then b + 32 else b

/-- `if LOWER_CASE { b.to_ascii_lowercase() } else { b }` (octets/src/lib.rs:674-678). -/
def fold (lc : Bool) (b : UInt8) : UInt8 := if lc then lower b else b

/-- `ENCODE_TABLE[i]`. -/
def entry (i : Nat) : Nat × Nat := encodeTable.getD i (0, 0)

/-- `code << k` on `u64`. -/
def shl64 (x k : Nat) : Nat := (x <<< k) % 2 ^ 64

/-- The loop of `put_huffman_encoded` (octets/src/lib.rs:670-700): `bits` and `pending`
at its end. -/
def encLoop (lc : Bool) : Bytes → Nat → Nat → Cur → Except OErr (Nat × Nat) × Cur
  | [], bits, pending, c => (.ok (bits, pending), c)
  | b :: t, bits, pending, c =>
    let (nbits, code) := entry (fold lc b).toNat
    let pending := pending + nbits
    if pending < 64 then encLoop lc t (bits ||| shl64 code (64 - pending)) pending c
    else
      let pending := pending - 64
      match c.putU 8 (bits ||| (code >>> pending)) with
      | (.error e, c) => (.error e, c)
      | (.ok (), c) => encLoop lc t (if pending = 0 then 0 else shl64 code (64 - pending)) pending c

/-- The last loop of `put_huffman_encoded` (octets/src/lib.rs:715-718), for
`pending = 8 * k`. -/
def putTail : Nat → Nat → Cur → Except OErr Unit × Cur
  | 0, _, c => (.ok (), c)
  | k + 1, bits, c =>
    match c.putU 1 (bits >>> (8 * k)) with
    | (.error e, c) => (.error e, c)
    | (.ok (), c) => putTail k bits c

/-- `put_huffman_encoded` (octets/src/lib.rs:661-721). `(pending + 7) & !7` is written
with division. -/
def putHuffman (lc : Bool) (c : Cur) (v : Bytes) : Except OErr Unit × Cur :=
  match encLoop lc v 0 0 c with
  | (.error e, c) => (.error e, c)
  | (.ok (bits, pending), c) =>
    if pending = 0 then (.ok (), c)
    else
      let bits := bits ||| ((2 ^ 64 - 1) >>> pending)
      let k := (pending + 7) / 8
      let bits := bits >>> (64 - 8 * k)
      if 8 * k ≥ 32 then
        match c.putU 4 (bits >>> (8 * k - 32)) with
        | (.error e, c) => (.error e, c)
        | (.ok (), c) => putTail (k - 4) bits c
      else putTail k bits c

/-- `huffman_encoding_len` (octets/src/lib.rs:851-881). -/
def encodingLen (lc : Bool) (src : Bytes) : Except OErr Nat :=
  let bits := src.foldl (fun n b => n + (entry (fold lc b).toNat).1) 0
  let len := bits / 8
  let len := if bits &&& 7 ≠ 0 then len + 1 else len
  if len > src.length then .error .tooShort else .ok len

/-- The body of the inner loop of `get_huffman_decoded_with_max_length`
(octets/src/lib.rs:280-301): state, output and `eos` after four bits of input. -/
def nibble (maxLen : Nat) (st : Nat) (out : Bytes) (data : Nat) : Except OErr (Nat × Bytes × Bool) :=
  let (next, sym, flags) := (decodeTable.getD st []).getD data (0, 0, 0)
  if flags &&& 4 = 4 then .error .tooShort
  else if flags &&& 2 = 2 then
    if out.length + 1 > maxLen then .error .tooShort
    else .ok (next, out ++ [UInt8.ofNat sym], flags &&& 1 == 1)
  else .ok (next, out, flags &&& 1 == 1)

/-- The loop of `get_huffman_decoded_with_max_length` (octets/src/lib.rs:276-308) over the
bytes left, with the number of bytes consumed. -/
def decLoop (maxLen : Nat) : Bytes → Nat → Bytes → Bool → Nat → Except OErr Bytes × Nat
  | [], st, out, eos, n => (if st ≠ 0 ∧ eos = false then .error .tooShort else .ok out, n)
  | byte :: t, st, out, _, n =>
    match nibble maxLen st out (byte.toNat >>> 4) with
    | .error e => (.error e, n + 1)
    | .ok (st, out, _) =>
      match nibble maxLen st out (byte.toNat &&& 0xf) with
      | .error e => (.error e, n + 1)
      | .ok (st, out, eos) => decLoop maxLen t st out eos (n + 1)

/-- `get_huffman_decoded_with_max_length` (octets/src/lib.rs:259-309). -/
def getHuffmanMax (c : Cur) (maxLen : Nat) : Except OErr Bytes × Cur :=
  match decLoop maxLen c.rest 0 [] false 0 with
  | (r, n) => (r, { c with off := c.off + n })

/-- `usize::MAX`. -/
abbrev usizeMax : Nat := 2 ^ 64 - 1

/-- `get_huffman_decoded` (octets/src/lib.rs:251-257). -/
def getHuffman (c : Cur) : Except OErr Bytes × Cur := getHuffmanMax c usizeMax

end Verif.Huffman
