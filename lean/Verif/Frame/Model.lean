import Verif.Codec.Io
import Verif.Ranges.Model

/-!
Model of the frame parser and serialiser (`/repo/quiche/src/frame.rs`). `u64` is
modelled by `Nat`: every integer read is below 2^62, and `Frame.InRange`
(Frame/Spec.lean) bounds those written. `usize` is 64 bits wide, so `as usize` is
the identity. qlog and `Debug` are not modelled.
-/

namespace Verif.Frame
open Verif

/-- The error values of frame.rs (quiche/src/error.rs). `panic` stands for a Rust
panic. -/
inductive Err where
  | bufferTooShort
  | invalidFrame
  | invalidPacket
  | panic
  deriving DecidableEq, Repr

instance : FromOctets Err where
  fromO
    | .tooShort => .bufferTooShort
    | .panic => .panic

abbrev P := Io Err

/-- `packet::Type` (packet.rs:121-139). -/
inductive PktType where
  | initial | retry | handshake | zeroRTT | versionNegotiation | short
  deriving DecidableEq, Repr

/-- `EcnCounts` (frame.rs:50-55). -/
structure Ecn where
  ect0 : Nat
  ect1 : Nat
  ce : Nat
  deriving DecidableEq, Repr

/-- `Frame` (frame.rs:57-187). A `RangeBuf` is given by its offset, bytes and fin
flag; `[u8; 16]` and `[u8; 8]` by byte strings. -/
inductive Frame where
  | padding (len : Nat)
  | ping (mtuProbe : Option Nat)
  | ack (delay : Nat) (ranges : Ranges.RangeSet) (ecn : Option Ecn)
  | resetStream (id code finalSize : Nat)
  | stopSending (id code : Nat)
  | crypto (off : Nat) (data : Bytes)
  | cryptoHeader (off len : Nat)
  | newToken (token : Bytes)
  | stream (id off : Nat) (data : Bytes) (fin : Bool)
  | streamHeader (id off len : Nat) (fin : Bool)
  | maxData (max : Nat)
  | maxStreamData (id max : Nat)
  | maxStreamsBidi (max : Nat)
  | maxStreamsUni (max : Nat)
  | dataBlocked (limit : Nat)
  | streamDataBlocked (id limit : Nat)
  | streamsBlockedBidi (limit : Nat)
  | streamsBlockedUni (limit : Nat)
  | newConnectionId (seq retirePriorTo : Nat) (cid token : Bytes)
  | retireConnectionId (seq : Nat)
  | pathChallenge (data : Bytes)
  | pathResponse (data : Bytes)
  | connectionClose (code frameType : Nat) (reason : Bytes)
  | applicationClose (code : Nat) (reason : Bytes)
  | handshakeDone
  | datagram (data : Bytes)
  | datagramHeader (len : Nat)
  deriving DecidableEq, Repr

/-- `MAX_STREAM_SIZE` (frame.rs:48). -/
abbrev maxStreamSize : Nat := 2 ^ 62
/-- `packet::MAX_CID_LEN` (packet.rs:52). -/
abbrev maxCidLen : Nat := 20
/-- `RangeSet::default()` (ranges.rs:347-354): no limit but `usize::MAX`. -/
def defaultRanges : Ranges.RangeSet := .new (2 ^ 64 - 1)

/-! ### Decoding -/

/-- The number of zero bytes at the start of a byte string. -/
def zeros : Bytes → Nat
  | [] => 0
  | b :: t => if b = 0 then zeros t + 1 else 0

/-- The loop `while b.peek_u8() == Ok(0x00) { b.get_u8()?; len += 1; }`
(frame.rs:200-204): skips zero bytes and returns how many. -/
def skipZeros : P Nat := fun c => (.ok (zeros c.rest), { c with off := c.off + zeros c.rest })

/-- `ranges.insert(..)`. -/
def insertRange (r : Ranges.RangeSet) (s e : Nat) : P Ranges.RangeSet :=
  match r.insert (s, e) with
  | some r => pure r
  | none => Io.fail .panic

/-- The loop of `parse_ack_frame` (frame.rs:1277-1295). -/
def ackBlocks : Nat → Nat → Ranges.RangeSet → P Ranges.RangeSet
  | 0, _, r => pure r
  | n + 1, smallest, r => do
    let gap ← Io.varint
    if smallest < 2 + gap then Io.fail .invalidFrame else do
    let largest := smallest - gap - 2
    let block ← Io.varint
    if largest < block then Io.fail .invalidFrame else do
    let r ← insertRange r (largest - block) (largest + 1)
    ackBlocks n (largest - block) r

/-- `parse_ack_frame` (frame.rs:1259-1313). -/
def parseAck (ty : Nat) : P Frame := do
  let largest ← Io.varint
  let delay ← Io.varint
  let count ← Io.varint
  let block ← Io.varint
  if largest < block then Io.fail .invalidFrame else do
  let r ← insertRange defaultRanges (largest - block) (largest + 1)
  let r ← ackBlocks count (largest - block) r
  if ty % 256 &&& 0x01 ≠ 0 then do
    let ect0 ← Io.varint
    let ect1 ← Io.varint
    let ce ← Io.varint
    pure (.ack delay r (some ⟨ect0, ect1, ce⟩))
  else pure (.ack delay r none)

/-- `parse_stream_frame` (frame.rs:1369-1396). -/
def parseStream (ty : Nat) : P Frame := do
  let id ← Io.varint
  let off ← (if ty % 256 &&& 0x04 ≠ 0 then Io.varint else pure 0)
  let len ← (if ty % 256 &&& 0x02 ≠ 0 then Io.varint else Io.cap)
  if off + len ≥ maxStreamSize then Io.fail .invalidFrame else do
  let data ← Io.bytes len
  pure (.stream id off data (ty % 256 &&& 0x01 != 0))

/-- `parse_datagram_frame` (frame.rs:1398-1412). -/
def parseDatagram (ty : Nat) : P Frame := do
  let len ← (if ty % 256 &&& 0x01 ≠ 0 then Io.varint else Io.cap)
  let data ← Io.bytes len
  pure (.datagram data)

/-- The first part of `Frame::from_bytes` (frame.rs:194-333): read a frame. -/
def parse (ty : Nat) : P Frame :=
  match ty with
  | 0x00 => do
    let n ← skipZeros
    pure (.padding (1 + n))
  | 0x01 => pure (.ping none)
  | 0x02 | 0x03 => parseAck ty
  | 0x04 => do
    let id ← Io.varint
    let code ← Io.varint
    let size ← Io.varint
    pure (.resetStream id code size)
  | 0x05 => do
    let id ← Io.varint
    let code ← Io.varint
    pure (.stopSending id code)
  | 0x06 => do
    let off ← Io.varint
    let data ← Io.varBytes
    pure (.crypto off data)
  | 0x07 => do
    let len ← Io.varint
    if len = 0 then Io.fail .invalidFrame else do
    let token ← Io.bytes len
    pure (.newToken token)
  | 0x08 | 0x09 | 0x0a | 0x0b | 0x0c | 0x0d | 0x0e | 0x0f => parseStream ty
  | 0x10 => do
    let max ← Io.varint
    pure (.maxData max)
  | 0x11 => do
    let id ← Io.varint
    let max ← Io.varint
    pure (.maxStreamData id max)
  | 0x12 => do
    let max ← Io.varint
    pure (.maxStreamsBidi max)
  | 0x13 => do
    let max ← Io.varint
    pure (.maxStreamsUni max)
  | 0x14 => do
    let limit ← Io.varint
    pure (.dataBlocked limit)
  | 0x15 => do
    let id ← Io.varint
    let limit ← Io.varint
    pure (.streamDataBlocked id limit)
  | 0x16 => do
    let limit ← Io.varint
    pure (.streamsBlockedBidi limit)
  | 0x17 => do
    let limit ← Io.varint
    pure (.streamsBlockedUni limit)
  | 0x18 => do
    let seq ← Io.varint
    let retire ← Io.varint
    let len ← Io.getU 1
    if ¬ (1 ≤ len ∧ len ≤ maxCidLen) then Io.fail .invalidFrame else do
    let cid ← Io.bytes len
    let token ← Io.bytes 16
    pure (.newConnectionId seq retire cid token)
  | 0x19 => do
    let seq ← Io.varint
    pure (.retireConnectionId seq)
  | 0x1a => do
    let data ← Io.bytes 8
    pure (.pathChallenge data)
  | 0x1b => do
    let data ← Io.bytes 8
    pure (.pathResponse data)
  | 0x1c => do
    let code ← Io.varint
    let ft ← Io.varint
    let reason ← Io.varBytes
    pure (.connectionClose code ft reason)
  | 0x1d => do
    let code ← Io.varint
    let reason ← Io.varBytes
    pure (.applicationClose code reason)
  | 0x1e => pure .handshakeDone
  | 0x30 | 0x31 => parseDatagram ty
  | _ => Io.fail .invalidFrame

/-- The table of permitted frames in `Frame::from_bytes` (frame.rs:335-364); the
arms are tried in order. -/
def allowed (pkt : PktType) (f : Frame) : Bool :=
  match pkt, f with
  | _, .padding _ | _, .ping _ => true
  | .zeroRTT, .ack .. => false
  | .zeroRTT, .crypto .. => false
  | .zeroRTT, .handshakeDone => false
  | .zeroRTT, .newToken _ => false
  | .zeroRTT, .pathResponse _ => false
  | .zeroRTT, .retireConnectionId _ => false
  | .zeroRTT, .connectionClose .. => false
  | _, .ack .. => true
  | _, .crypto .. => true
  | _, .connectionClose .. => true
  | .short, _ => true
  | .zeroRTT, _ => true
  | _, _ => false

/-- `Frame::from_bytes` (frame.rs:190-371). -/
def fromBytes (pkt : PktType) : P Frame := do
  let ty ← Io.varint
  let f ← parse ty
  if allowed pkt f then pure f else Io.fail .invalidPacket

/-! ### Encoding -/

/-- `encode_crypto_header` (frame.rs:1315-1326). -/
def encodeCryptoHeader (off len : Nat) : P Unit := do
  Io.putVarint 0x06
  Io.putVarint off
  Io.putVarintLen len 2

/-- `encode_stream_header` (frame.rs:1328-1353). -/
def encodeStreamHeader (id off len : Nat) (fin : Bool) : P Unit := do
  let ty := (0x08 ||| 0x04) ||| 0x02
  let ty := if fin then ty ||| 0x01 else ty
  Io.putVarint ty
  Io.putVarint id
  Io.putVarint off
  Io.putVarintLen len 2

/-- `encode_dgram_header` (frame.rs:1355-1367). -/
def encodeDgramHeader (len : Nat) : P Unit := do
  Io.putVarint (0x30 ||| 0x01)
  Io.putVarintLen len 2

/-- The loop of the PADDING case (frame.rs:377-385). -/
def putZeros : Nat → P Unit
  | 0 => pure ()
  | n + 1 => do
    Io.putVarint 0x00
    putZeros n

/-- `u64` subtraction: an underflow panics (overflow checks on). -/
def sub (a b : Nat) : P Nat := if b ≤ a then pure (a - b) else Io.fail .panic

/-- The loop over the remaining ranges of the ACK case (frame.rs:415-423). -/
def putBlocks : Nat → List Rng → P Unit
  | _, [] => pure ()
  | smallest, (s, e) :: t => do
    let x ← sub smallest e
    let gap ← sub x 1
    let l ← sub e 1
    let block ← sub l s
    Io.putVarint gap
    Io.putVarint block
    putBlocks s t

/-- The ACK case (frame.rs:391-430): `ranges.iter().rev()`, `it.next().unwrap()`. -/
def putAck (delay : Nat) (ranges : List Rng) (ecn : Option Ecn) : P Unit := do
  if ecn.isNone then Io.putVarint 0x02 else Io.putVarint 0x03
  match ranges.reverse with
  | [] => Io.fail .panic
  | (s, e) :: t => do
    let l ← sub e 1
    let block ← sub l s
    Io.putVarint l
    Io.putVarint delay
    Io.putVarint t.length
    Io.putVarint block
    putBlocks s t
    match ecn with
    | none => pure ()
    | some ecn => do
      Io.putVarint ecn.ect0
      Io.putVarint ecn.ect1
      Io.putVarint ecn.ce

/-- The `match` of `Frame::to_bytes` (frame.rs:376-593). -/
def put : Frame → P Unit
  | .padding len => putZeros len
  | .ping _ => Io.putVarint 0x01
  | .ack delay ranges ecn => putAck delay ranges.ranges ecn
  | .resetStream id code size => do
    Io.putVarint 0x04
    Io.putVarint id
    Io.putVarint code
    Io.putVarint size
  | .stopSending id code => do
    Io.putVarint 0x05
    Io.putVarint id
    Io.putVarint code
  | .crypto off data => do
    encodeCryptoHeader off data.length
    Io.putBytes data
  | .cryptoHeader .. => pure ()
  | .newToken token => do
    Io.putVarint 0x07
    Io.putVarint token.length
    Io.putBytes token
  | .stream id off data fin => do
    encodeStreamHeader id off data.length fin
    Io.putBytes data
  | .streamHeader .. => pure ()
  | .maxData max => do
    Io.putVarint 0x10
    Io.putVarint max
  | .maxStreamData id max => do
    Io.putVarint 0x11
    Io.putVarint id
    Io.putVarint max
  | .maxStreamsBidi max => do
    Io.putVarint 0x12
    Io.putVarint max
  | .maxStreamsUni max => do
    Io.putVarint 0x13
    Io.putVarint max
  | .dataBlocked limit => do
    Io.putVarint 0x14
    Io.putVarint limit
  | .streamDataBlocked id limit => do
    Io.putVarint 0x15
    Io.putVarint id
    Io.putVarint limit
  | .streamsBlockedBidi limit => do
    Io.putVarint 0x16
    Io.putVarint limit
  | .streamsBlockedUni limit => do
    Io.putVarint 0x17
    Io.putVarint limit
  | .newConnectionId seq retire cid token => do
    Io.putVarint 0x18
    Io.putVarint seq
    Io.putVarint retire
    Io.putU 1 cid.length
    Io.putBytes cid
    Io.putBytes token
  | .retireConnectionId seq => do
    Io.putVarint 0x19
    Io.putVarint seq
  | .pathChallenge data => do
    Io.putVarint 0x1a
    Io.putBytes data
  | .pathResponse data => do
    Io.putVarint 0x1b
    Io.putBytes data
  | .connectionClose code ft reason => do
    Io.putVarint 0x1c
    Io.putVarint code
    Io.putVarint ft
    Io.putVarint reason.length
    Io.putBytes reason
  | .applicationClose code reason => do
    Io.putVarint 0x1d
    Io.putVarint code
    Io.putVarint reason.length
    Io.putBytes reason
  | .handshakeDone => Io.putVarint 0x1e
  | .datagram data => do
    encodeDgramHeader data.length
    Io.putBytes data
  | .datagramHeader _ => pure ()

/-- `Frame::to_bytes` (frame.rs:373-596). -/
def toBytes (f : Frame) : P Nat := do
  let before ← Io.cap
  put f
  let after ← Io.cap
  pure (before - after)

/-! ### Sizes -/

/-- The loop of the ACK case of `wire_len` (frame.rs:629-637); `none` is a panic. -/
def blocksLen : Nat → List Rng → Option Nat
  | _, [] => some 0
  | smallest, (s, e) :: t => do
    if smallest < e + 1 ∨ e < s + 1 then none else
    let a ← varintLen (smallest - e - 1)
    let b ← varintLen (e - 1 - s)
    let n ← blocksLen s t
    some (a + b + n)

/-- The ACK case of `wire_len` (frame.rs:604-646). -/
def ackLen (delay : Nat) (ranges : List Rng) (ecn : Option Ecn) : Option Nat := do
  match ranges.reverse with
  | [] => none
  | (s, e) :: t =>
    if e < s + 1 then none else
    let a ← varintLen (e - 1)
    let b ← varintLen delay
    let c ← varintLen t.length
    let d ← varintLen (e - 1 - s)
    let n ← blocksLen s t
    match ecn with
    | none => some (1 + a + b + c + d + n)
    | some ecn => do
      let x ← varintLen ecn.ect0
      let y ← varintLen ecn.ect1
      let z ← varintLen ecn.ce
      some (1 + a + b + c + d + n + (x + y + z))

/-- `Frame::wire_len` (frame.rs:598-806); `none` is a panic (`varint_len` of a
value above 2^62 - 1, an ACK frame without ranges, or an underflow). -/
def wireLen : Frame → Option Nat
  | .padding len => some len
  | .ping _ => some 1
  | .ack delay ranges ecn => ackLen delay ranges.ranges ecn
  | .resetStream id code size => do
    some (1 + (← varintLen id) + (← varintLen code) + (← varintLen size))
  | .stopSending id code => do some (1 + (← varintLen id) + (← varintLen code))
  | .crypto off data => do some (1 + (← varintLen off) + 2 + data.length)
  | .cryptoHeader off len => do some (1 + (← varintLen off) + 2 + len)
  | .newToken token => do some (1 + (← varintLen token.length) + token.length)
  | .stream id off data _ => do
    some (1 + (← varintLen id) + (← varintLen off) + 2 + data.length)
  | .streamHeader id off len _ => do
    some (1 + (← varintLen id) + (← varintLen off) + 2 + len)
  | .maxData max => do some (1 + (← varintLen max))
  | .maxStreamData id max => do some (1 + (← varintLen id) + (← varintLen max))
  | .maxStreamsBidi max => do some (1 + (← varintLen max))
  | .maxStreamsUni max => do some (1 + (← varintLen max))
  | .dataBlocked limit => do some (1 + (← varintLen limit))
  | .streamDataBlocked id limit => do some (1 + (← varintLen id) + (← varintLen limit))
  | .streamsBlockedBidi limit => do some (1 + (← varintLen limit))
  | .streamsBlockedUni limit => do some (1 + (← varintLen limit))
  | .newConnectionId seq retire cid token => do
    some (1 + (← varintLen seq) + (← varintLen retire) + 1 + cid.length + token.length)
  | .retireConnectionId seq => do some (1 + (← varintLen seq))
  | .pathChallenge _ => some (1 + 8)
  | .pathResponse _ => some (1 + 8)
  | .connectionClose code ft reason => do
    some (1 + (← varintLen code) + (← varintLen ft) + (← varintLen reason.length) + reason.length)
  | .applicationClose code reason => do
    some (1 + (← varintLen code) + (← varintLen reason.length) + reason.length)
  | .handshakeDone => some 1
  | .datagram data => some (1 + 2 + data.length)
  | .datagramHeader len => some (1 + 2 + len)

/-- `ack_eliciting` (frame.rs:808-817). -/
def ackEliciting : Frame → Bool
  | .padding _ | .ack .. | .applicationClose .. | .connectionClose .. => false
  | _ => true

/-- `probing` (frame.rs:819-827). -/
def probing : Frame → Bool
  | .padding _ | .newConnectionId .. | .pathChallenge _ | .pathResponse _ => true
  | _ => false

end Verif.Frame
