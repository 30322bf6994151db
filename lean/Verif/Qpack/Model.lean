import Verif.Codec.Io
import Verif.Huffman.Model
import Verif.Qpack.Table

/-!
Model of QPACK (`/repo/quiche/src/h3/qpack`). `u64` and `usize` are `Nat` below 2^64; where
the code checks for overflow so does the model. The encoder writes through a cursor; the
decoder's read cursor is represented by the bytes left in it (`Octets::as_ref`).
-/

namespace Verif.Qpack
open Verif Verif.Huffman

/-- `qpack::Error` (h3/qpack/mod.rs:47-62). `panic` stands for a panic. -/
inductive Err where
  | bufferTooShort
  | invalidHuffmanEncoding
  | invalidStaticTableIndex
  | invalidHeaderValue
  | headerListTooLarge
  | panic
  deriving DecidableEq, Repr

/-- h3/qpack/mod.rs:76-80. -/
instance : FromOctets Err where
  fromO
    | .tooShort => .bufferTooShort
    | .panic => .panic

abbrev Q := Io Err

/-- `INDEXED` (h3/qpack/mod.rs:32). -/
abbrev indexed : Nat := 0x80
/-- `INDEXED_WITH_POST_BASE` (h3/qpack/mod.rs:33). -/
abbrev indexedWithPostBase : Nat := 0x10
/-- `LITERAL` (h3/qpack/mod.rs:34). -/
abbrev literal : Nat := 0x20
/-- `LITERAL_WITH_NAME_REF` (h3/qpack/mod.rs:35). -/
abbrev literalWithNameRef : Nat := 0x40

/-- A header: name and value. -/
abbrev Header := Bytes × Bytes

/-! ### Encoder -/

/-- The loop of `encode_int` and what follows (h3/qpack/encoder.rs:134-146). The first
argument bounds the number of bytes; ten are enough for 64 bits. -/
def putCont : Nat → Nat → Q Unit
  | 0, _ => Io.fail .panic
  | k + 1, v =>
    if v ≥ 128 then do
      Io.putU 1 (v % 128 + 128)
      putCont k (v >>> 7)
    else Io.putU 1 v

/-- `encode_int` (h3/qpack/encoder.rs:120-147). -/
def encodeInt (v first pre : Nat) : Q Unit :=
  let mask := 2 ^ pre - 1
  if v < mask then Io.putU 1 (first ||| v)
  else do
    Io.putU 1 (first ||| mask)
    putCont 10 (v - mask)

/-- `encode_str` (h3/qpack/encoder.rs:149-172). -/
def encodeStr (lc : Bool) (v : Bytes) (first pre : Nat) : Q Unit :=
  match encodingLen lc v with
  | .ok len => do
    encodeInt len (first ||| (1 <<< pre)) pre
    Io.lift (putHuffman lc · v)
  | .error _ => do
    encodeInt v.length first pre
    Io.putBytes (v.map (fold lc))

/-- `cmp_lowercase` (h3/qpack/encoder.rs:94-96). `zip` stops at the shorter one. -/
def cmpLowercase (a b : Bytes) : Bool := (a.zip b).all (fun x => x.1 == lower x.2)

/-- The loop over the values of a name (h3/qpack/encoder.rs:102-111). -/
def lookupValue (value : Bytes) : List (Bytes × Nat) → Option (Nat × Bool)
  | [] => none
  | (v, enc) :: l =>
    if v.isEmpty then some (enc, false)
    else if value == v then some (enc, true)
    else lookupValue value l

/-- The loop over the names (h3/qpack/encoder.rs:98-117). -/
def lookupName (name value : Bytes) : List (Bytes × List (Bytes × Nat)) → Option (Nat × Bool)
  | [] => none
  | (n, vs) :: l =>
    if cmpLowercase n name then
      match lookupValue value vs with
      | some r => some r
      | none => vs.head?.map (fun x => (x.2, false))
    else lookupName name value l

/-- `lookup_static` of the encoder (h3/qpack/encoder.rs:87-118). -/
def lookupStatic (h : Header) : Option (Nat × Bool) :=
  match encodeTable[h.1.length]? with
  | some t => lookupName h.1 h.2 t
  | none => none

/-- The body of the loop in `Encoder::encode` (h3/qpack/encoder.rs:57-80). -/
def encodeField (h : Header) : Q Unit :=
  match lookupStatic h with
  | some (idx, true) => encodeInt idx (indexed ||| 0x40) 6
  | some (idx, false) => do
    encodeInt idx (literalWithNameRef ||| 0x10) 4
    encodeStr false h.2 0 7
  | none => do
    encodeStr true h.1 literal 3
    encodeStr false h.2 0 7

/-- The loop. -/
def encodeFields : List Header → Q Unit
  | [] => pure ()
  | h :: l => do
    encodeField h
    encodeFields l

/-- `Encoder::encode` (h3/qpack/encoder.rs:45-83); the number of bytes is the offset of the
cursor. -/
def encode (hs : List Header) : Q Unit := do
  encodeInt 0 0 8
  encodeInt 0 0 7
  encodeFields hs

/-! ### Decoder -/

/-- The loop of `decode_int` (h3/qpack/decoder.rs:285-303). `checked_shl` fails for shifts
of 64 and more only: bits shifted out are lost. -/
def contLoop : Bytes → Nat → Nat → Except Err (Nat × Bytes)
  | [], _, _ => .error .bufferTooShort
  | b :: t, val, shift =>
    if 64 ≤ shift then .error .bufferTooShort
    else
      let val := val + shl64 (b.toNat &&& 0x7f) shift
      if 2 ^ 64 ≤ val then .error .bufferTooShort
      else if b.toNat &&& 0x80 = 0 then .ok (val, t)
      else contLoop t val (shift + 7)

/-- `decode_int` (h3/qpack/decoder.rs:275-304). -/
def decodeInt (pre : Nat) : Bytes → Except Err (Nat × Bytes)
  | [] => .error .bufferTooShort
  | b :: t =>
    let mask := 2 ^ pre - 1
    let val := b.toNat &&& mask
    if val < mask then .ok (val, t) else contLoop t val 0

/-- The string of a literal: `get_bytes`, then decoding or copying within the limit
(h3/qpack/decoder.rs:194-206 and 313-323). -/
def takeStr (huff : Bool) (len limit : Nat) (bs : Bytes) : Except Err (Bytes × Bytes) :=
  if bs.length < len then .error .bufferTooShort
  else if huff then
    match (getHuffmanMax (Cur.withSlice (bs.take len)) limit).1 with
    | .ok s => .ok (s, bs.drop len)
    | .error _ => .error .headerListTooLarge
  else if limit < len then .error .headerListTooLarge
  else .ok (bs.take len, bs.drop len)

/-- `decode_str` (h3/qpack/decoder.rs:306-326). -/
def decodeStr (limit : Nat) (bs : Bytes) : Except Err (Bytes × Bytes) :=
  match bs with
  | [] => .error .bufferTooShort
  | first :: _ =>
    match decodeInt 7 bs with
    | .error e => .error e
    | .ok (len, t) => takeStr (first.toNat &&& 0x80 == 0x80) len limit t

/-- `lookup_static` of the decoder (h3/qpack/decoder.rs:267-273). -/
def staticEntry (idx : Nat) : Except Err Header :=
  match decodeTable[idx]? with
  | some e => .ok e
  | none => .error .invalidStaticTableIndex

/-- `on_field_part_decoded` (h3/qpack/decoder.rs:93-115). -/
def spend (limit len : Nat) : Except Err Nat :=
  if limit < len then .error .headerListTooLarge else .ok (limit - len)

/-- `Representation` (h3/qpack/decoder.rs:37-44). -/
inductive Repr where
  | indexed | indexedWithPostBase | literal | literalWithNameRef | literalWithPostBase
  deriving DecidableEq

/-- `Representation::from_byte` (h3/qpack/decoder.rs:47-65). -/
def Repr.fromByte (b : Nat) : Repr :=
  if b &&& Qpack.indexed = Qpack.indexed then .indexed
  else if b &&& Qpack.literalWithNameRef = Qpack.literalWithNameRef then .literalWithNameRef
  else if b &&& Qpack.literal = Qpack.literal then .literal
  else if b &&& Qpack.indexedWithPostBase = Qpack.indexedWithPostBase then .indexedWithPostBase
  else .literalWithPostBase

/-- `Representation::Indexed` (h3/qpack/decoder.rs:158-179). -/
def readIndexed (first limit : Nat) (bs : Bytes) : Except Err (Header × Nat × Bytes) :=
  match decodeInt 6 bs with
  | .error e => .error e
  | .ok (idx, t) =>
    if first &&& 0x40 = 0x40 then
      match staticEntry idx with
      | .error e => .error e
      | .ok h =>
        match spend limit (h.1.length + h.2.length) with
        | .error e => .error e
        | .ok l => .ok (h, l, t)
    else .error .invalidHeaderValue

/-- The value of a literal, with the header made of it. -/
def readValue (name : Bytes) (limit : Nat) (bs : Bytes) : Except Err (Header × Nat × Bytes) :=
  match decodeStr limit bs with
  | .error e => .error e
  | .ok (value, t) =>
    match spend limit value.length with
    | .error e => .error e
    | .ok l => .ok ((name, value), l, t)

/-- `Representation::Literal` (h3/qpack/decoder.rs:190-222). -/
def readLiteral (first limit : Nat) (bs : Bytes) : Except Err (Header × Nat × Bytes) :=
  match decodeInt 3 bs with
  | .error e => .error e
  | .ok (len, t) =>
    match takeStr (first &&& 0x08 == 0x08) len limit t with
    | .error e => .error e
    | .ok (name, t) =>
      match spend limit name.length with
      | .error e => .error e
      | .ok l => readValue name l t

/-- `Representation::LiteralWithNameRef` (h3/qpack/decoder.rs:224-252). -/
def readNameRef (first limit : Nat) (bs : Bytes) : Except Err (Header × Nat × Bytes) :=
  if first &&& 0x10 = 0x10 then
    match decodeInt 4 bs with
    | .error e => .error e
    | .ok (idx, t) =>
      match staticEntry idx with
      | .error e => .error e
      | .ok h =>
        match spend limit h.1.length with
        | .error e => .error e
        | .ok l => readValue h.1 l t
  else .error .invalidHeaderValue

/-- The body of the loop of `Decoder::decode` (h3/qpack/decoder.rs:152-260): one field line,
the bytes left to spend and the bytes left to read. -/
def readField (limit : Nat) (bs : Bytes) : Except Err (Header × Nat × Bytes) :=
  match bs with
  | [] => .error .bufferTooShort
  | b :: _ =>
    match spend limit 32 with
    | .error e => .error e
    | .ok l =>
      match Repr.fromByte b.toNat with
      | .indexed => readIndexed b.toNat l bs
      | .literal => readLiteral b.toNat l bs
      | .literalWithNameRef => readNameRef b.toNat l bs
      | .indexedWithPostBase =>
        match decodeInt 4 bs with
        | .error e => .error e
        | .ok _ => .error .invalidHeaderValue
      | .literalWithPostBase => .error .invalidHeaderValue

/-- The loop (h3/qpack/decoder.rs:152-261). Every field line takes at least one byte, so
that a bound of the number of bytes is never exceeded (`panic` if it were). -/
def readFields : Nat → Nat → Bytes → Except Err (List Header)
  | _, _, [] => .ok []
  | 0, _, _ => .error .panic
  | k + 1, limit, bs =>
    match readField limit bs with
    | .error e => .error e
    | .ok (h, l, t) =>
      match readFields k l t with
      | .error e => .error e
      | .ok hs => .ok (h :: hs)

/-- `Decoder::decode` (h3/qpack/decoder.rs:140-264). -/
def decode (bs : Bytes) (maxSize : Nat) : Except Err (List Header) :=
  match decodeInt 8 bs with
  | .error e => .error e
  | .ok (_, t) =>
    match decodeInt 7 t with
    | .error e => .error e
    | .ok (_, t) => readFields t.length maxSize t

end Verif.Qpack
