import Verif.Codec.Fields
import Verif.Frame.Model
import Verif.Packet.Num

/-!
Model of packet headers and packet protection (`/repo/quiche/src/packet.rs` and the
parts of `/repo/quiche/src/lib.rs` that put packets together and take them apart).
Ciphers are parameters (`Keys`).
-/

namespace Verif.Packet
open Verif
export Verif.Frame (PktType)

/-- The error values used (quiche/src/error.rs). `panic` stands for a Rust panic. -/
inductive Err where
  | bufferTooShort
  | invalidPacket
  | unknownVersion
  | cryptoFail
  | panic
  deriving DecidableEq, Repr

instance : FromOctets Err where
  fromO
    | .tooShort => .bufferTooShort
    | .panic => .panic

abbrev P := Io Err

/-- `Header` (packet.rs:295-327). -/
structure Header where
  ty : PktType
  version : Nat
  dcid : Bytes
  scid : Bytes
  pktNum : Nat := 0
  pktNumLen : Nat := 0
  token : Option Bytes := none
  versions : Option (List Nat) := none
  keyPhase : Bool := false
  deriving DecidableEq, Repr

/-- `MAX_CID_LEN` (packet.rs:52). -/
abbrev maxCidLen : Nat := 20
/-- `PROTOCOL_VERSION_V1` (lib.rs:437). -/
abbrev versionV1 : Nat := 1
/-- `version_is_supported` (lib.rs:1877-1879). -/
def versionIsSupported (v : Nat) : Bool := v == versionV1
/-- `RETRY_AEAD_ALG.tag_len()` (packet.rs:63; crypto/mod.rs: AES128_GCM). -/
abbrev retryTagLen : Nat := 16

/-- `Header::is_long` (packet.rs:531-533). -/
def isLong (b : Nat) : Bool := b &&& 0x80 != 0

/-- The loop `while b.cap() > 0 { list.push(b.get_u32()?) }` (packet.rs:427-430). The
first argument bounds the number of rounds; it is never exhausted. -/
def versionList : Nat → P (List Nat)
  | 0 => Io.fail .panic
  | n + 1 => do
    let left ← Io.cap
    if left > 0 then do
      let v ← Io.getU 4
      let l ← versionList n
      pure (v :: l)
    else pure []

/-- The type bits of a long header (packet.rs:381-390). -/
def longType (first version : Nat) : Option PktType :=
  if version = 0 then some .versionNegotiation
  else match (first &&& 0x30) >>> 4 with
    | 0 => some .initial
    | 1 => some .zeroRTT
    | 2 => some .handshake
    | 3 => some .retry
    | _ => none

/-- The part of a long header that depends on the packet type (packet.rs:407-437). -/
def longTail (ty : PktType) : P (Option Bytes × Option (List Nat)) :=
  match ty with
  | .initial => do
    let t ← Io.varBytes
    pure (some t, none)
  | .retry => do
    let left ← Io.cap
    if left < retryTagLen then Io.fail .invalidPacket else do
    let t ← Io.bytes (left - retryTagLen)
    pure (some t, none)
  | .versionNegotiation => do
    let left ← Io.cap
    let l ← versionList (left + 1)
    pure (none, some l)
  | _ => pure (none, none)

/-- Connection IDs and the rest of a long header (packet.rs:392-450). -/
def longIds (version : Nat) (ty : PktType) : P Header := do
  let dl ← Io.getU 1
  if versionIsSupported version ∧ dl > maxCidLen then Io.fail .invalidPacket else do
  let dcid ← Io.bytes dl
  let sl ← Io.getU 1
  if versionIsSupported version ∧ sl > maxCidLen then Io.fail .invalidPacket else do
  let scid ← Io.bytes sl
  let r ← longTail ty
  pure { ty := ty, version := version, dcid := dcid, scid := scid, token := r.1, versions := r.2 }

/-- A long header behind its first byte (packet.rs:378-450). -/
def longHeader (first : Nat) : P Header := do
  let version ← Io.getU 4
  match longType first version with
  | none => Io.fail .invalidPacket
  | some ty => longIds version ty

/-- A short header behind its first byte (packet.rs:361-374). -/
def shortHeader (dcidLen : Nat) : P Header := do
  let dcid ← Io.bytes dcidLen
  pure { ty := .short, version := 0, dcid := dcid, scid := [] }

/-- `Header::from_bytes` (packet.rs:355-451). -/
def fromBytes (dcidLen : Nat) : P Header := do
  let first ← Io.getU 1
  if isLong first = false then shortHeader dcidLen else longHeader first

/-- `u8` value of a `usize` (`as u8`). -/
abbrev asU8 (n : Nat) : Nat := n % 256

/-- First byte of a short header (packet.rs:454-473). -/
def firstShort (pktNumLen : Nat) (keyPhase : Bool) : Nat :=
  let first := 0 ||| asU8 (pktNumLen - 1)
  let first := first &&& 0x7f
  let first := first ||| 0x40
  if keyPhase then first ||| 0x04 else first &&& 0xfb

/-- First byte of a long header (packet.rs:454-458, 483-492). -/
def firstLong (pktNumLen ty : Nat) : Nat :=
  (0 ||| asU8 (pktNumLen - 1)) ||| (0x80 ||| 0x40 ||| (ty <<< 4))

/-- Type bits of the long header types that can be written (packet.rs:483-489). -/
def typeBits : PktType → Option Nat
  | .initial => some 0
  | .zeroRTT => some 1
  | .handshake => some 2
  | .retry => some 3
  | _ => none

/-- `Header::to_bytes` (packet.rs:453-526). -/
def toBytes (h : Header) : P Unit :=
  if h.ty = .short then do
    Io.putU 1 (firstShort h.pktNumLen h.keyPhase)
    Io.putBytes h.dcid
  else match typeBits h.ty with
  | none => Io.fail .invalidPacket
  | some ty => do
    Io.putU 1 (firstLong h.pktNumLen ty)
    Io.putU 4 h.version
    Io.putU 1 (asU8 h.dcid.length)
    Io.putBytes h.dcid
    Io.putU 1 (asU8 h.scid.length)
    Io.putBytes h.scid
    match h.ty with
    | .initial => match h.token with
      | some v => do
        Io.putVarint v.length
        Io.putBytes v
      | none => Io.putVarint 0
    | .retry => match h.token with
      | some v => Io.putBytes v
      | none => Io.fail .panic
    | _ => pure ()

/-- `encode_pkt_num` (packet.rs:719-735): `pn as u8` .. `pn as u32` drop high bits, as
does `putU`. -/
def encodePktNum (pn pnLen : Nat) : P Unit :=
  if 1 ≤ pnLen ∧ pnLen ≤ 4 then Io.putU pnLen pn else Io.fail .invalidPacket

/-! ### Protection -/

/-- Keys of one direction: `crypto::Seal` of the sender and `crypto::Open` of the
receiver. `mask` is `new_mask` (five bytes, by index), `encrypt` and `decrypt` the AEAD with
packet number (nonce) and associated data. -/
structure Keys where
  mask : Bytes → Nat → UInt8
  tagLen : Nat
  encrypt : Nat → Bytes → Bytes → Bytes
  decrypt : Nat → Bytes → Bytes → Option Bytes

/-- What AEAD schemes guarantee: the ciphertext is longer by the tag, and opening
undoes sealing. -/
structure Keys.Sound (k : Keys) : Prop where
  length : ∀ pn ad pt, (k.encrypt pn ad pt).length = pt.length + k.tagLen
  decrypt : ∀ pn ad pt, k.decrypt pn ad (k.encrypt pn ad pt) = some pt
  shorter : ∀ pn ad ct pt, k.decrypt pn ad ct = some pt → ct.length = pt.length + k.tagLen

/-- `for i in 0..n { buf[i] ^= mask[i + 1] }`. -/
def xorMask (mask : Nat → UInt8) : Nat → Bytes → Bytes
  | _, [] => []
  | i, b :: t => (b ^^^ mask (i + 1)) :: xorMask mask (i + 1) t

/-- The bits of the first byte under protection (packet.rs:592-596, 684-688). -/
def xorFirst (first m : UInt8) : UInt8 :=
  first ^^^ (if isLong first.toNat then m &&& 0x0f else m &&& 0x1f)

/-- `encrypt_hdr` (packet.rs:674-698) on header bytes `hdr` and sealed payload. The
slice `payload[a..b]` panics if out of range, as does `MAX_PKT_NUM_LEN - pn_len`. -/
def encryptHdr (k : Keys) (hdr : Bytes) (pnLen : Nat) (payload : Bytes) : Except Err Bytes :=
  if pnLen > 4 then .error .panic
  else if payload.length < 16 + (4 - pnLen) then .error .panic
  else
    let mask := k.mask ((payload.drop (4 - pnLen)).take 16)
    match hdr with
    | [] => .error .bufferTooShort
    | first :: rest =>
      if pnLen > rest.length then .error .bufferTooShort
      else
        .ok (xorFirst first (mask 0) ::
          (rest.take (rest.length - pnLen) ++ xorMask mask 0 (rest.drop (rest.length - pnLen))))

/-- `encrypt_pkt` (packet.rs:700-717): `b` holds header and plain payload; seals in
place. `seal_with_u64_counter` (crypto/boringssl.rs:119-163) fails if the tag does not
fit. Returns the buffer and the number of bytes written. -/
def encryptPkt (k : Keys) (buf : Bytes) (pn pnLen payloadLen payloadOffset : Nat) : Except Err (Bytes × Nat) :=
  if buf.length < payloadOffset then .error .bufferTooShort
  else
    let hdr := buf.take payloadOffset
    let payload := buf.drop payloadOffset
    if payloadLen + k.tagLen > payload.length then .error .cryptoFail
    else
      let ct := k.encrypt pn hdr (payload.take payloadLen)
      let payload := ct ++ payload.drop ct.length
      match encryptHdr k hdr pnLen payload with
      | .error e => .error e
      | .ok hdr => .ok (hdr ++ payload, payloadOffset + ct.length)

/-- `decrypt_hdr` (packet.rs:577-632): the cursor is at the packet number. Returns the
packet number bytes' value, their number and the key phase bit, and writes the
unprotected bytes back. -/
def decryptHdr (k : Keys) : P (Nat × Nat × Bool) := fun c =>
  match c.buf with
  | [] => (.error .bufferTooShort, c)
  | first :: _ =>
    if c.cap < 4 + 16 then (.error .bufferTooShort, c)
    else
      let mask := k.mask ((c.rest.drop 4).take 16)
      let first := xorFirst first (mask 0)
      let pnLen := (first &&& 0x03).toNat + 1
      let pnBytes := xorMask mask 0 (c.rest.take pnLen)
      let buf := Cur.overwrite c.buf c.off pnBytes
      let buf := Cur.overwrite buf 0 [first]
      (.ok (beVal pnBytes, pnLen, first &&& 0x04 != 0), { buf := buf, off := c.off + pnLen })

/-- `decrypt_pkt` (packet.rs:654-672): the cursor is behind the packet number. -/
def decryptPkt (k : Keys) (pn pnLen payloadLen : Nat) : P Bytes := fun c =>
  if c.buf.length < c.off then (.error .bufferTooShort, c)
  else
    let header := c.buf.take c.off
    if payloadLen < pnLen then (.error .invalidPacket, c)
    else
      let len := payloadLen - pnLen
      let payload := c.buf.drop c.off
      if payload.length < len then (.error .bufferTooShort, c)
      else match k.decrypt pn header (payload.take len) with
      | none => (.error .cryptoFail, c)
      | some pt =>
        let c := { c with buf := Cur.overwrite c.buf c.off pt }
        if c.cap < pt.length then (.error .bufferTooShort, c)
        else (.ok pt, { c with off := c.off + pt.length })

/-! ### Whole packets -/

/-- `PAYLOAD_LENGTH_LEN` (lib.rs:477). -/
abbrev payloadLengthLen : Nat := 2

/-- The packet-building steps of `send_single` (lib.rs:4409-4515, 5361-5371,
5427-5435): header, room for the length, packet number, payload; then the length is
filled in and the packet protected. The buffer starts with the packet. Returns the
buffer and the number of bytes written. -/
def build (k : Keys) (h : Header) (pn : Nat) (payload : Bytes) (buf : Bytes) : Except Err (Bytes × Nat) :=
  match toBytes h (Cur.withSlice buf) with
  | (.error e, _) => .error e
  | (.ok _, c) =>
    let headerOffset := c.off
    let skipped : Except Err Unit × Cur :=
      if h.ty ≠ .short then Io.lift (Cur.skip · payloadLengthLen) c else (.ok (), c)
    match skipped with
    | (.error e, _) => .error e
    | (.ok _, c) =>
    match encodePktNum pn h.pktNumLen c with
    | (.error e, _) => .error e
    | (.ok _, c) =>
    let payloadOffset := c.off
    match (Io.putBytes payload : P Unit) c with
    | (.error e, _) => .error e
    | (.ok _, c) =>
    let filled : Except Err Unit × Cur :=
      if h.ty ≠ .short then
        (Io.putVarintLen (h.pktNumLen + payload.length + k.tagLen) payloadLengthLen : P Unit)
          { buf := c.buf, off := headerOffset }
      else (.ok (), c)
    match filled with
    | (.error e, _) => .error e
    | (.ok _, c) => encryptPkt k c.buf pn h.pktNumLen payload.length payloadOffset

/-- A packet as the receiver sees it. -/
structure Received where
  hdr : Header
  pn : Nat
  payload : Bytes
  /-- bytes of the datagram used -/
  read : Nat
  deriving DecidableEq, Repr

/-- The unpacking steps of `recv_single` (lib.rs:2982-2992, 3161-3188, 3250-3321,
3789): header, length, header protection, packet number, payload. The key is given (no
key update), `dcidLen` is the length of own connection IDs, `largest` the largest packet
number received. Version Negotiation and Retry packets are handled before (`none`). -/
def unpack (k : Keys) (dcidLen largest : Nat) (buf : Bytes) : Except Err (Option Received) :=
  match fromBytes dcidLen (Cur.withSlice buf) with
  | (.error e, _) => .error e
  | (.ok h, c) =>
    if h.ty = .versionNegotiation ∨ h.ty = .retry then .ok none
    else
    let len : Except Err Nat × Cur := if h.ty = .short then (.ok c.cap, c) else (Io.varint : P Nat) c
    match len with
    | (.error e, _) => .error e
    | (.ok payloadLen, c) =>
    if payloadLen > c.cap then .error .invalidPacket
    else match decryptHdr k c with
    | (.error e, _) => .error e
    | (.ok (t, pnLen, phase), c) =>
    let pn := decodePktNum largest t pnLen
    match decryptPkt k pn pnLen payloadLen c with
    | (.error e, _) => .error e
    | (.ok pt, c) =>
      .ok (some {
        hdr := { h with pktNum := t, pktNumLen := pnLen, keyPhase := if h.ty = .short then phase else h.keyPhase }
        pn := pn, payload := pt, read := c.off + k.tagLen })

/-! ### Version Negotiation and Retry -/

/-- `b.off()`. -/
def offset : P Nat := fun c => (.ok c.off, c)

/-- `negotiate_version` (packet.rs:737-754); `rnd` is the random byte. Returns the
buffer and the number of bytes written. -/
def negotiateVersion (rnd : UInt8) (scid dcid : Bytes) : P Nat := do
  Io.putU 1 (rnd ||| 0x80).toNat
  Io.putU 4 0
  Io.putU 1 (asU8 scid.length)
  Io.putBytes scid
  Io.putU 1 (asU8 dcid.length)
  Io.putBytes dcid
  Io.putU 4 versionV1
  offset

/-- `compute_retry_integrity_tag` (packet.rs:797-845): the tag of the pseudo packet made
of the original destination connection ID and the bytes before the cursor. `mac` is
AES-128-GCM with the fixed key and nonce of the version, applied to the pseudo packet as
associated data. -/
def retryTag (mac : Bytes → Bytes) (c : Cur) (odcid : Bytes) : Bytes :=
  mac (beBytes 1 (asU8 odcid.length) ++ odcid ++ c.buf.take c.off)

/-- Computing the tag and putting it behind the header (packet.rs:780-782). -/
def putTag (mac : Bytes → Bytes) (odcid : Bytes) : P Unit := fun c => (Io.putBytes (retryTag mac c odcid) : P Unit) c

/-- `retry` (packet.rs:756-785). -/
def retry (mac : Bytes → Bytes) (scid dcid newScid token : Bytes) (version : Nat) : P Nat :=
  if versionIsSupported version = false then Io.fail .unknownVersion
  else do
    toBytes { ty := .retry, version := version, dcid := scid, scid := newScid, token := some token }
    putTag mac dcid
    offset

/-- `verify_retry_integrity` (packet.rs:787-795): the cursor is at the tag; slicing
panics if fewer than 16 bytes are left. -/
def verifyRetry (mac : Bytes → Bytes) (c : Cur) (odcid : Bytes) : Except Err Unit :=
  let tag := retryTag mac c odcid
  if c.rest.length < retryTagLen then .error .panic
  else if c.rest.take retryTagLen = tag then .ok () else .error .cryptoFail

end Verif.Packet
