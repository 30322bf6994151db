import Verif.Tp.Decode
import Verif.Octets.Api
import Verif.Cid.Model

/-!
Model of what a client keeps from one connection to the next (`/repo/quiche/src/lib.rs`,
`/repo/quiche/src/tls/mod.rs`): the session ticket with the transport parameters of the
server, their use before the handshake, their replacement by those of the handshake, and the
recognition of stateless resets. TLS is a parameter: whether it takes a session, and what
parameters the peer sent. The update of the send capacity and of datagram sizes is left out.
-/

namespace Verif.Resume
open Verif Verif.Tp

/-- What is stored for the next connection (`new_session`, tls/mod.rs:1009-1038): the session
of TLS and the parameters of the peer as they came. -/
def pack (sess raw : Bytes) : Bytes := beBytes 8 sess.length ++ (sess ++ (beBytes 8 raw.length ++ raw))

/-- The parts of a client `Connection` that matter here. `tls` is the session TLS was given. -/
structure Client where
  ids : Tp.Ids
  dcids : Cid.Ids
  track : Option Nat := none
  tls : Option Bytes := none
  tp : Params := {}
  parsed : Bool := false
  maxTx : Nat := 0
  streamsBidi : Nat := 0
  streamsUni : Nat := 0
  maxAckDelay : Nat := 0
  closed : Bool := false
  deriving DecidableEq, Repr

/-- A client that has just been created (lib.rs:2008-2270): no parameters of the peer are
known, a random destination connection ID is used. -/
def Client.start (limit : Nat) (scid dcid : Bytes) (track : Option Nat) : Client :=
  { ids := { isServer := false, dcid := dcid }
    dcids := (Cid.new limit scid 0 none).setInitialDcid dcid none (some 0), track := track }

namespace Client

/-- `process_peer_transport_params` (lib.rs:7959-8007), with `update_peer_max_streams_bidi`
and `update_peer_max_streams_uni` (stream/mod.rs:520-527). -/
def process (c : Client) (tp : Params) : Client :=
  { c with
    maxTx := tp.maxData
    streamsBidi := max c.streamsBidi tp.maxStreamsBidi
    streamsUni := max c.streamsUni tp.maxStreamsUni
    maxAckDelay := tp.maxAckDelay
    dcids := c.dcids.setSourceLimit tp.activeCidLimit
    tp := tp }

/-- The second half of `set_session` (lib.rs:2408-2417). -/
def setParams (c : Client) (b : Cur) : Except Err Unit × Client :=
  match b.getBytesWithU 8 with
  | (.error e, _) => (.error (FromOctets.fromO e), c)
  | (.ok raw, _) =>
    match decode raw c.ids.isServer c.track with
    | .error e => (.error e, c)
    | .ok tp => (.ok (), c.process tp)

/-- `set_session` (lib.rs:2400-2420). `takes` tells which sessions TLS takes; its error is
not told from an invalid parameter. -/
def setSession (c : Client) (takes : Bytes → Bool) (blob : Bytes) : Except Err Unit × Client :=
  match (Cur.withSlice blob).getBytesWithU 8 with
  | (.error e, _) => (.error (FromOctets.fromO e), c)
  | (.ok sess, b) => if takes sess then { c with tls := some sess }.setParams b else (.error .invalidTransportParam, c)

/-- The parameters TLS hands over in the course of the handshake (lib.rs:8090-8105,
8114-8124, 7906-7957): looked at once. -/
def onParams (c : Client) (raw : Bytes) : Except Err Unit × Client :=
  if c.parsed then (.ok (), c)
  else
    match peerParams c.ids raw c.track with
    | .error e => (.error e, c)
    | .ok none => (.ok (), c)
    | .ok (some tp) => (.ok (), { c.process tp with parsed := true })

/-- A packet that was decrypted (lib.rs:3400-3414). -/
def onPacket (c : Client) (scid : Bytes) : Client :=
  if c.ids.gotPeer then c
  else { c with ids := c.ids.onPacket scid, dcids := c.dcids.setInitialDcid scid c.tp.resetToken (some 0) }

/-- A Retry packet with a valid tag (lib.rs:3085-3133). -/
def onRetry (c : Client) (scid : Bytes) : Client :=
  if c.ids.didRetry then c
  else { c with ids := c.ids.onRetry scid, dcids := c.dcids.setInitialDcid scid none (some 0) }

/-- `is_stateless_reset` (lib.rs:2922-2944). -/
def isReset (c : Client) (d : Bytes) : Bool :=
  if d.length < 21 then false
  else
    match c.tp.resetToken with
    | some t => d.drop (d.length - 16) == beBytes 16 t
    | none => false

/-- The rest of a datagram that cannot be processed (lib.rs:2870-2880). -/
def onNoise (c : Client) (d : Bytes) : Client := if c.isReset d then { c with closed := true } else c

end Client

/-- What happens to a client after its creation. -/
inductive Ev where
  /-- The application offers what it stored. -/
  | session (takes : Bytes → Bool) (blob : Bytes)
  | retry (scid : Bytes)
  | packet (scid : Bytes)
  /-- TLS hands over the parameters of the server. -/
  | params (raw : Bytes)
  /-- A NEW_CONNECTION_ID frame. -/
  | newCid (cid : Bytes) (seq token rpt : Nat)
  /-- The application retires a connection ID of the server. -/
  | retire (seq : Nat)
  /-- A datagram, or its end, that cannot be processed. -/
  | noise (d : Bytes)

def Client.step (c : Client) : Ev → Client
  | .session takes blob => (c.setSession takes blob).2
  | .retry s => c.onRetry s
  | .packet s => c.onPacket s
  | .params raw => (c.onParams raw).2
  | .newCid cid seq token rpt => { c with dcids := (c.dcids.newDcid cid seq token rpt).2.2 }
  | .retire seq => { c with dcids := (c.dcids.retireDcid seq).2 }
  | .noise d => c.onNoise d

def Client.run (c : Client) (evs : List Ev) : Client := evs.foldl step c

end Verif.Resume
