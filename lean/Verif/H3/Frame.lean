import Verif.Codec.Io
import Verif.Octets.Lemmas

/-!
Model of HTTP/3 frames (`/repo/quiche/src/h3/frame.rs`). The parser's cursor is represented
by the bytes left in it; reading a variable-length integer from them is `decVarint`, which
is what `get_varint` does (`getVarint_eq`).
-/

namespace Verif.H3
open Verif

/-- `h3::Error` (h3/mod.rs:367-434); errors of the transport are `transport`, but for
`Error::StreamReset`. `panic` stands for a panic. -/
inductive Err where
  | done | bufferTooShort | internalError | excessiveLoad | idError | streamCreationError
  | closedCriticalStream | missingSettings | frameUnexpected | frameError
  | qpackDecompressionFailed | streamReset (code : Nat) | transport | streamBlocked
  | settingsError | panic
  deriving DecidableEq, Repr

/-- h3/mod.rs:571-575. -/
instance : FromOctets Err where
  fromO
    | .tooShort => .bufferTooShort
    | .panic => .panic

abbrev P := Io Err

/-- `to_wire` (h3/mod.rs:493-518). -/
def Err.toWire : Err → Nat
  | .done => 0x100
  | .internalError => 0x102
  | .streamCreationError => 0x103
  | .closedCriticalStream => 0x104
  | .frameUnexpected => 0x105
  | .frameError => 0x106
  | .excessiveLoad => 0x107
  | .idError => 0x108
  | .settingsError => 0x109
  | .missingSettings => 0x10a
  | .qpackDecompressionFailed => 0x200
  | .bufferTooShort => 0x999
  | .streamReset _ => 0xff
  | .transport => 0xff
  | .streamBlocked => 0xff
  | .panic => 0

/-! Frame types (h3/frame.rs:32-40). -/
abbrev tData : Nat := 0x0
abbrev tHeaders : Nat := 0x1
abbrev tCancelPush : Nat := 0x3
abbrev tSettings : Nat := 0x4
abbrev tPushPromise : Nat := 0x5
abbrev tGoAway : Nat := 0x7
abbrev tMaxPush : Nat := 0xd
abbrev tPrioRequest : Nat := 0xf0700
abbrev tPrioPush : Nat := 0xf0701

/-! Setting identifiers (h3/frame.rs:42-47). -/
abbrev sQpackMaxTableCapacity : Nat := 0x1
abbrev sMaxFieldSectionSize : Nat := 0x6
abbrev sQpackBlockedStreams : Nat := 0x7
abbrev sEnableConnectProtocol : Nat := 0x8
abbrev sDatagram00 : Nat := 0x276
abbrev sDatagram : Nat := 0x33

/-- `MAX_SETTINGS_PAYLOAD_SIZE` (h3/frame.rs:50). -/
abbrev maxSettings : Nat := 256

/-- The fields of `Frame::Settings` (h3/frame.rs:66-75). -/
structure Settings where
  maxFieldSectionSize : Option Nat := none
  qpackMaxTableCapacity : Option Nat := none
  qpackBlockedStreams : Option Nat := none
  connectProtocolEnabled : Option Nat := none
  h3Datagram : Option Nat := none
  grease : Option (Nat × Nat) := none
  additional : Option (List (Nat × Nat)) := none
  raw : Option (List (Nat × Nat)) := none
  deriving DecidableEq, Repr

/-- `Frame` (h3/frame.rs:53-104). -/
inductive Frame where
  | data (payload : Bytes)
  | headers (block : Bytes)
  | cancelPush (id : Nat)
  | settings (s : Settings)
  | pushPromise (id : Nat) (block : Bytes)
  | goAway (id : Nat)
  | maxPushId (id : Nat)
  | prioRequest (id : Nat) (value : Bytes)
  | prioPush (id : Nat) (value : Bytes)
  | unknown (ty : Nat) (payload : Bytes)
  deriving DecidableEq, Repr

/-! ### Parsing -/

/-- `b.get_varint()?`. -/
def getVar (bs : Bytes) : Except Err (Nat × Bytes) :=
  match decVarint bs with
  | .ok (v, n) => .ok (v, bs.drop n)
  | .error e => .error (FromOctets.fromO e)

/-- `b.get_bytes(n)?`. -/
def getRaw (n : Nat) (bs : Bytes) : Except Err Bytes :=
  if bs.length < n then .error .bufferTooShort else .ok (bs.take n)

/-- The `match identifier` of `parse_settings_frame` (h3/frame.rs:592-631). -/
def Settings.apply (s : Settings) (id v : Nat) : Except Err Settings :=
  if id = sQpackMaxTableCapacity then .ok { s with qpackMaxTableCapacity := some v }
  else if id = sMaxFieldSectionSize then .ok { s with maxFieldSectionSize := some v }
  else if id = sQpackBlockedStreams then .ok { s with qpackBlockedStreams := some v }
  else if id = sEnableConnectProtocol then
    if v > 1 then .error .settingsError else .ok { s with connectProtocolEnabled := some v }
  else if id = sDatagram00 ∨ id = sDatagram then
    if v > 1 then .error .settingsError else .ok { s with h3Datagram := some v }
  else if id = 0 ∨ id = 2 ∨ id = 3 ∨ id = 4 ∨ id = 5 then .error .settingsError
  else .ok { s with additional := some (s.additional.getD [] ++ [(id, v)]) }

/-- `raw.push((identifier, value))` (h3/frame.rs:588-590). -/
def Settings.pushRaw (s : Settings) (id v : Nat) : Settings :=
  { s with raw := some (s.raw.getD [] ++ [(id, v)]) }

/-- The loop of `parse_settings_frame` (h3/frame.rs:584-632); `left` is what is missing to
`settings_length`. The first argument bounds the iterations; each takes two bytes. -/
def parseSettings : Nat → Nat → Settings → Bytes → Except Err Settings
  | 0, left, s, _ => if 0 < left then .error .panic else .ok s
  | k + 1, left, s, bs =>
    if 0 < left then
      match getVar bs with
      | .error e => .error e
      | .ok (id, t) =>
        match getVar t with
        | .error e => .error e
        | .ok (v, u) =>
          match (s.pushRaw id v).apply id v with
          | .error e => .error e
          | .ok s => parseSettings k (left - (bs.length - u.length)) s u
    else .ok s

/-- A varint and the rest of the payload: `parse_push_promise`, `parse_priority_update`
(h3/frame.rs:646-684). The subtraction panics if it underflows. -/
def parseIdAnd (f : Nat → Bytes → Frame) (len : Nat) (bs : Bytes) : Except Err Frame :=
  match getVar bs with
  | .error e => .error e
  | .ok (id, t) =>
    if len < bs.length - t.length then .error .panic
    else
      match getRaw (len - (bs.length - t.length)) t with
      | .error e => .error e
      | .ok r => .ok (f id r)

/-- A single varint. -/
def parseId (f : Nat → Frame) (bs : Bytes) : Except Err Frame :=
  match getVar bs with
  | .error e => .error e
  | .ok (id, _) => .ok (f id)

/-- Uninterpreted payload. -/
def parseRaw (f : Bytes → Frame) (len : Nat) (bs : Bytes) : Except Err Frame :=
  match getRaw len bs with
  | .error e => .error e
  | .ok r => .ok (f r)

/-- `parse_settings_frame` (h3/frame.rs:568-644). -/
def parseSettingsFrame (len : Nat) (bs : Bytes) : Except Err Frame :=
  if len > maxSettings then .error .excessiveLoad
  else
    match parseSettings (bs.length + 1) len { raw := some [] } bs with
    | .error e => .error e
    | .ok s => .ok (.settings s)

/-- `Frame::from_bytes` (h3/frame.rs:107-151). -/
def fromBytes (ty len : Nat) (bs : Bytes) : Except Err Frame :=
  if ty = tData then parseRaw .data len bs
  else if ty = tHeaders then parseRaw .headers len bs
  else if ty = tCancelPush then parseId .cancelPush bs
  else if ty = tSettings then parseSettingsFrame len bs
  else if ty = tPushPromise then parseIdAnd .pushPromise len bs
  else if ty = tGoAway then parseId .goAway bs
  else if ty = tMaxPush then parseId .maxPushId bs
  else if ty = tPrioRequest then parseIdAnd .prioRequest len bs
  else if ty = tPrioPush then parseIdAnd .prioPush len bs
  else parseRaw (.unknown ty) len bs

/-! ### Serialising -/

/-- `octets::varint_len`, which panics for integers without encoding. -/
def vlen (v : Nat) : P Nat :=
  match varintLen v with
  | some n => pure n
  | none => Io.fail .panic

/-- The settings sent, in order (h3/frame.rs:229-269). -/
def Settings.pairs (s : Settings) : List (Nat × Nat) :=
  (s.maxFieldSectionSize.map (fun v => (sMaxFieldSectionSize, v))).toList ++
  (s.qpackMaxTableCapacity.map (fun v => (sQpackMaxTableCapacity, v))).toList ++
  (s.qpackBlockedStreams.map (fun v => (sQpackBlockedStreams, v))).toList ++
  (s.connectProtocolEnabled.map (fun v => (sEnableConnectProtocol, v))).toList ++
  (match s.h3Datagram with
    | some v => [(sDatagram00, v), (sDatagram, v)]
    | none => []) ++
  s.grease.toList ++ s.additional.getD []

/-- The length of the payload (h3/frame.rs:188-227). -/
def lenPairs : List (Nat × Nat) → P Nat
  | [] => pure 0
  | (id, v) :: l => do
    let a ← vlen id
    let b ← vlen v
    let n ← lenPairs l
    pure (a + b + n)

/-- Identifiers and values (h3/frame.rs:232-269). -/
def putPairs : List (Nat × Nat) → P Unit
  | [] => pure ()
  | (id, v) :: l => do
    Io.putVarint id
    Io.putVarint v
    putPairs l

/-- Type, length and uninterpreted payload. -/
def putRaw (ty : Nat) (payload : Bytes) : P Unit := do
  Io.putVarint ty
  Io.putVarint payload.length
  Io.putBytes payload

/-- Type, length and a single varint. -/
def putId (ty id : Nat) : P Unit := do
  Io.putVarint ty
  let n ← vlen id
  Io.putVarint n
  Io.putVarint id

/-- Type, length, a varint and bytes. -/
def putIdAnd (ty id : Nat) (r : Bytes) : P Unit := do
  let n ← vlen id
  Io.putVarint ty
  Io.putVarint (n + r.length)
  Io.putVarint id
  Io.putBytes r

/-- `Frame::to_bytes` (h3/frame.rs:153-335); the number returned is that of the bytes
written. -/
def toBytes : Frame → P Unit
  | .data p => putRaw tData p
  | .headers p => putRaw tHeaders p
  | .cancelPush id => putId tCancelPush id
  | .settings s => do
    let n ← lenPairs s.pairs
    Io.putVarint tSettings
    Io.putVarint n
    putPairs s.pairs
  | .pushPromise id r => putIdAnd tPushPromise id r
  | .goAway id => putId tGoAway id
  | .maxPushId id => putId tMaxPush id
  | .prioRequest id r => putIdAnd tPrioRequest id r
  | .prioPush id r => putIdAnd tPrioPush id r
  | .unknown ty p => putRaw ty p

end Verif.H3
