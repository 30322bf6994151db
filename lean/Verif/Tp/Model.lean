import Verif.Codec.Fields

/-!
Model of the transport parameters (`/repo/quiche/src/transport_params.rs`) and of the
checks a connection makes on those of its peer (`/repo/quiche/src/lib.rs`). The `qlog`
parts are left out. A `u128` token is a `Nat`, connection IDs are byte strings.
-/

namespace Verif.Tp
open Verif

/-- The error values used. `panic` stands for a Rust panic. -/
inductive Err where
  | bufferTooShort
  | invalidTransportParam
  | panic
  deriving DecidableEq, Repr

instance : FromOctets Err where
  fromO
    | .tooShort => .bufferTooShort
    | .panic => .panic

abbrev P := Io Err

/-- `UnknownTransportParameters` (transport_params.rs:100-106). -/
structure Unknown where
  capacity : Nat
  params : List (Nat × Bytes) := []
  deriving DecidableEq, Repr

/-- `UnknownTransportParameters::push` (transport_params.rs:111-120); the result is not
looked at. -/
def Unknown.push (u : Unknown) (id : Nat) (val : Bytes) : Unknown :=
  let size := val.length + 8
  if size < u.capacity then { capacity := u.capacity - size, params := u.params ++ [(id, val)] } else u

/-- `TransportParams` (transport_params.rs:154-194) with the default values
(transport_params.rs:196-219). -/
structure Params where
  originalDcid : Option Bytes := none
  maxIdleTimeout : Nat := 0
  resetToken : Option Nat := none
  maxUdpPayload : Nat := 65527
  maxData : Nat := 0
  maxStreamDataBidiLocal : Nat := 0
  maxStreamDataBidiRemote : Nat := 0
  maxStreamDataUni : Nat := 0
  maxStreamsBidi : Nat := 0
  maxStreamsUni : Nat := 0
  ackDelayExponent : Nat := 3
  maxAckDelay : Nat := 25
  disableMigration : Bool := false
  activeCidLimit : Nat := 2
  initialScid : Option Bytes := none
  retryScid : Option Bytes := none
  maxDatagram : Option Nat := none
  unknown : Option Unknown := none
  deriving DecidableEq, Repr

/-- `MAX_STREAM_ID` (lib.rs:461). -/
abbrev maxStreamId : Nat := 2 ^ 60
/-- `MAX_ACK_DELAY_EXPONENT` (transport_params.rs:45). -/
abbrev maxAckDelayExponent : Nat := 20

/-- `val.get_varint()?` on the value of a parameter; what follows the integer is not looked
at. -/
def valVarint (val : Bytes) : Except Err Nat := ((Io.varint : P Nat) (Cur.withSlice val)).1

/-- `val.get_bytes(16)?`, as a 128-bit integer (transport_params.rs:259-264). -/
def valToken (val : Bytes) : Except Err Nat := ((Io.bytes 16 : P Bytes) (Cur.withSlice val)).1.map beVal

/-- An integer parameter with a condition on its value. -/
def intParam (val : Bytes) (ok : Nat → Bool) (set : Nat → Params) : Except Err Params :=
  match valVarint val with
  | .error e => .error e
  | .ok v => if ok v then .ok (set v) else .error .invalidTransportParam

/-- A parameter that only servers send; `isServer` is that of the receiver. -/
def serverOnly (isServer : Bool) (r : Except Err Params) : Except Err Params :=
  if isServer then .error .invalidTransportParam else r

/-- One parameter: the `match` in `decode` (transport_params.rs:245-371). -/
def apply (isServer : Bool) (tp : Params) (id : Nat) (val : Bytes) : Except Err Params :=
  match id with
  | 0x0000 => serverOnly isServer (.ok { tp with originalDcid := some val })
  | 0x0001 => intParam val (fun _ => true) fun v => { tp with maxIdleTimeout := v }
  | 0x0002 => serverOnly isServer <|
    match valToken val with
    | .error e => .error e
    | .ok t => .ok { tp with resetToken := some t }
  | 0x0003 => intParam val (fun v => decide (¬ v < 1200)) fun v => { tp with maxUdpPayload := v }
  | 0x0004 => intParam val (fun _ => true) fun v => { tp with maxData := v }
  | 0x0005 => intParam val (fun _ => true) fun v => { tp with maxStreamDataBidiLocal := v }
  | 0x0006 => intParam val (fun _ => true) fun v => { tp with maxStreamDataBidiRemote := v }
  | 0x0007 => intParam val (fun _ => true) fun v => { tp with maxStreamDataUni := v }
  | 0x0008 => intParam val (fun v => decide (¬ v > maxStreamId)) fun v => { tp with maxStreamsBidi := v }
  | 0x0009 => intParam val (fun v => decide (¬ v > maxStreamId)) fun v => { tp with maxStreamsUni := v }
  | 0x000a => intParam val (fun v => decide (¬ v > maxAckDelayExponent)) fun v => { tp with ackDelayExponent := v }
  | 0x000b => intParam val (fun v => decide (¬ v ≥ 2 ^ 14)) fun v => { tp with maxAckDelay := v }
  | 0x000c => .ok { tp with disableMigration := true }
  | 0x000d => serverOnly isServer (.ok tp)
  | 0x000e => intParam val (fun v => decide (¬ v < 2)) fun v => { tp with activeCidLimit := v }
  | 0x000f => .ok { tp with initialScid := some val }
  | 0x0010 => serverOnly isServer (.ok { tp with retryScid := some val })
  | 0x0020 => intParam val (fun _ => true) fun v => { tp with maxDatagram := some v }
  | id => .ok { tp with unknown := tp.unknown.map (·.push id val) }

/-- What follows the value of a parameter. -/
def orFail {α : Type} (r : Except Err α) (k : α → P Params) : P Params :=
  match r with
  | .error e => Io.fail e
  | .ok a => k a

/-- The loop of `decode` (transport_params.rs:235-372). The first argument bounds the
number of rounds; it is never exhausted. -/
def decodeLoop : Nat → Bool → List Nat → Params → P Params
  | 0, _, _, _ => Io.fail .panic
  | n + 1, isServer, seen, tp => do
    let left ← Io.cap
    if left > 0 then do
      let id ← Io.varint
      if seen.contains id then Io.fail .invalidTransportParam else do
      let val ← Io.varBytes
      orFail (apply isServer tp id val) fun tp => decodeLoop n isServer (id :: seen) tp
    else pure tp

/-- `TransportParams::decode` (transport_params.rs:222-375). -/
def decode (buf : Bytes) (isServer : Bool) (unknownSize : Option Nat) : Except Err Params :=
  (decodeLoop (buf.length + 1) isServer [] { unknown := unknownSize.map fun n => { capacity := n } }
    (Cur.withSlice buf)).1

/-! ### Encoding -/

/-- `encode_param` (transport_params.rs:377-384). -/
def encodeParam (ty len : Nat) : P Unit := do
  Io.putVarint ty
  Io.putVarint len

/-- An integer parameter: `assert!(v <= max)`, `encode_param(b, ty, varint_len(v))` and
`put_varint(v)`; `varint_len` panics beyond `MAX_VAR_INT`. -/
def putInt (ty v max : Nat) : P Unit :=
  if v ≤ max then
    match varintLen v with
    | none => Io.fail .panic
    | some n => do
      encodeParam ty n
      Io.putVarint v
  else Io.fail .panic

/-- A parameter that is a byte string. -/
def putRaw (ty : Nat) (v : Bytes) : P Unit := do
  encodeParam ty v.length
  Io.putBytes v

/-- `if cond { .. }`. -/
def doIf (cond : Bool) (p : P Unit) : P Unit := if cond then p else pure ()

/-- `if let Some(v) = o { .. }`. -/
def doSome {α : Type} (o : Option α) (p : α → P Unit) : P Unit :=
  match o with
  | none => pure ()
  | some v => p v

/-- `octets::MAX_VAR_INT`. -/
abbrev maxVarInt : Nat := 2 ^ 62 - 1

/-- `TransportParams::encode` (transport_params.rs:386-564). -/
def put (tp : Params) (isServer : Bool) : P Unit := do
  doIf isServer (doSome tp.originalDcid (putRaw 0x0000))
  doIf (tp.maxIdleTimeout != 0) (putInt 0x0001 tp.maxIdleTimeout maxVarInt)
  doIf isServer (doSome tp.resetToken fun t => putRaw 0x0002 (beBytes 16 t))
  doIf (tp.maxUdpPayload != 0) (putInt 0x0003 tp.maxUdpPayload maxVarInt)
  doIf (tp.maxData != 0) (putInt 0x0004 tp.maxData maxVarInt)
  doIf (tp.maxStreamDataBidiLocal != 0) (putInt 0x0005 tp.maxStreamDataBidiLocal maxVarInt)
  doIf (tp.maxStreamDataBidiRemote != 0) (putInt 0x0006 tp.maxStreamDataBidiRemote maxVarInt)
  doIf (tp.maxStreamDataUni != 0) (putInt 0x0007 tp.maxStreamDataUni maxVarInt)
  doIf (tp.maxStreamsBidi != 0) (putInt 0x0008 tp.maxStreamsBidi maxVarInt)
  doIf (tp.maxStreamsUni != 0) (putInt 0x0009 tp.maxStreamsUni maxVarInt)
  doIf (tp.ackDelayExponent != 0) (putInt 0x000a tp.ackDelayExponent maxAckDelayExponent)
  doIf (tp.maxAckDelay != 0) (putInt 0x000b tp.maxAckDelay maxVarInt)
  doIf tp.disableMigration (encodeParam 0x000c 0)
  doIf (tp.activeCidLimit != 2) (putInt 0x000e tp.activeCidLimit maxVarInt)
  doSome tp.initialScid (putRaw 0x000f)
  doIf isServer (doSome tp.retryScid (putRaw 0x0010))
  doSome tp.maxDatagram fun v => putInt 0x0020 v maxVarInt

/-- `TransportParams::encode` with a buffer of `room` bytes; returns the bytes written. -/
def encode (tp : Params) (isServer : Bool) (room : Nat) : Except Err Bytes :=
  match put tp isServer (Cur.withSlice (List.replicate room 0)) with
  | (.error e, _) => .error e
  | (.ok _, c) => .ok (c.buf.take c.off)

/-- `set_quic_transport_params` (tls/mod.rs:462-470): the buffer has 128 bytes. -/
def setParams (tp : Params) (isServer : Bool) : Except Err Bytes := encode tp isServer 128

/-! ### Configuration -/

/-- The calls of `Config` that set transport parameters (lib.rs:906-1077, 1180-1190,
1222-1224). -/
inductive Setter where
  | maxIdleTimeout (v : Nat)
  | maxUdpPayload (v : Nat)
  | maxData (v : Nat)
  | maxStreamDataBidiLocal (v : Nat)
  | maxStreamDataBidiRemote (v : Nat)
  | maxStreamDataUni (v : Nat)
  | maxStreamsBidi (v : Nat)
  | maxStreamsUni (v : Nat)
  | ackDelayExponent (v : Nat)
  | maxAckDelay (v : Nat)
  | activeCidLimit (v : Nat)
  | disableMigration (b : Bool)
  | enableDgram (b : Bool)
  | resetToken (t : Option Nat)
  deriving DecidableEq, Repr

/-- `Config::set_..` (lib.rs:906-1077), `enable_dgram` (lib.rs:1180-1190) and
`set_stateless_reset_token` (lib.rs:1222-1224). -/
def Params.set (tp : Params) : Setter → Params
  | .maxIdleTimeout v => { tp with maxIdleTimeout := min v maxVarInt }
  | .maxUdpPayload v => { tp with maxUdpPayload := min v maxVarInt }
  | .maxData v => { tp with maxData := min v maxVarInt }
  | .maxStreamDataBidiLocal v => { tp with maxStreamDataBidiLocal := min v maxVarInt }
  | .maxStreamDataBidiRemote v => { tp with maxStreamDataBidiRemote := min v maxVarInt }
  | .maxStreamDataUni v => { tp with maxStreamDataUni := min v maxVarInt }
  | .maxStreamsBidi v => { tp with maxStreamsBidi := min v maxVarInt }
  | .maxStreamsUni v => { tp with maxStreamsUni := min v maxVarInt }
  | .ackDelayExponent v => { tp with ackDelayExponent := min v maxAckDelayExponent }
  | .maxAckDelay v => { tp with maxAckDelay := min v maxVarInt }
  | .activeCidLimit v => if v ≥ 2 then { tp with activeCidLimit := min v maxVarInt } else tp
  | .disableMigration b => { tp with disableMigration := b }
  | .enableDgram b => { tp with maxDatagram := if b then some 65536 else none }
  | .resetToken t => { tp with resetToken := t }

/-! ### The checks of a connection -/

/-- What a connection remembers of connection IDs during the handshake (lib.rs:1443-1447,
1455-1490): the ID in use for the peer, the destination ID of the first packet, the source
ID of the Retry packet. -/
structure Ids where
  isServer : Bool
  dcid : Bytes
  odcid : Option Bytes := none
  rscid : Option Bytes := none
  didRetry : Bool := false
  gotPeer : Bool := false
  deriving DecidableEq, Repr

/-- A Retry packet with a valid integrity tag (lib.rs:3085-3133). -/
def Ids.onRetry (c : Ids) (scid : Bytes) : Ids :=
  if c.isServer then c
  else if c.didRetry then c
  else { c with didRetry := true, odcid := some c.dcid, dcid := scid, rscid := some scid, gotPeer := false }

/-- A packet that was decrypted (lib.rs:3400-3428); `scid` is its source ID. -/
def Ids.onPacket (c : Ids) (scid : Bytes) : Ids :=
  if c.gotPeer then c
  else if c.isServer then { c with dcid := scid, gotPeer := true }
  else { c with odcid := some (c.odcid.getD c.dcid), dcid := scid, gotPeer := true }

/-- The checks in `parse_peer_transport_params` (lib.rs:7909-7950). -/
def authenticate (c : Ids) (tp : Params) : Bool :=
  (match tp.initialScid with
    | some v => v == c.dcid
    | none => false) &&
  (match c.odcid with
    | some odcid => match tp.originalDcid with
      | some v => v == odcid
      | none => c.isServer
    | none => true) &&
  (match c.rscid with
    | some rscid => match tp.retryScid with
      | some v => v == rscid
      | none => false
    | none => true)

/-- The parameters the TLS library hands over (lib.rs:8092-8102, 8114-8124): not looked at
if empty. -/
def peerParams (c : Ids) (raw : Bytes) (unknownSize : Option Nat) : Except Err (Option Params) :=
  if raw.isEmpty then .ok none
  else
    match decode raw c.isServer unknownSize with
    | .error e => .error e
    | .ok tp => if authenticate c tp then .ok (some tp) else .error .invalidTransportParam

end Verif.Tp
