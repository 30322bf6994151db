import Verif.Packet.Header

/-!
Model of how an endpoint treats Version Negotiation and Retry packets
(`/repo/quiche/src/lib.rs`, `recv_single`). New keys, new transport parameters and the
restart of the handshake are not modelled; `restart` stands for them.
-/

namespace Verif.Packet
open Verif

/-- The fields of `Connection` used here. `scid` is `source_id()`, `dcid` is
`destination_id()`. -/
structure Endpoint where
  isServer : Bool
  version : Nat
  scid : Bytes
  dcid : Bytes
  didVn : Bool := false
  didRetry : Bool := false
  recvCount : Nat := 0
  token : Option Bytes := none
  odcid : Option Bytes := none
  rscid : Option Bytes := none
  deriving DecidableEq, Repr

/-- What becomes of a packet: `Err(Done)` without effect, `Err(Done)` after the
handshake was started over, or `Err(UnknownVersion)`. -/
inductive Outcome where
  | ignored
  | restart
  | unknownVersion
  deriving DecidableEq, Repr

/-- The loop over the supported versions (lib.rs:3027-3039). -/
def selectVersion (cur : Nat) : List Nat → Nat
  | [] => cur
  | v :: l => if v = versionV1 then v else selectVersion (max cur v) l

/-- A Version Negotiation packet (lib.rs:2993-3082). -/
def recvVn (c : Endpoint) (h : Header) : Outcome × Endpoint :=
  if c.isServer then (.ignored, c)
  else if c.didVn then (.ignored, c)
  else if c.recvCount > 0 then (.ignored, c)
  else if h.dcid ≠ c.scid then (.ignored, c)
  else if h.scid ≠ c.dcid then (.ignored, c)
  else match h.versions with
  | none => (.ignored, c)
  | some versions =>
    if versions.contains c.version then (.ignored, c)
    else
      let supported := versions.filter versionIsSupported
      let c1 := { c with version := selectVersion c.version supported }
      if supported.isEmpty then (.unknownVersion, c1)
      else (.restart, { c1 with didVn := true })

/-- A Retry packet; the cursor is behind its header (lib.rs:3084-3136). -/
def recvRetry (mac : Bytes → Bytes) (c : Endpoint) (h : Header) (b : Cur) : Outcome × Endpoint :=
  if c.isServer then (.ignored, c)
  else if c.didRetry then (.ignored, c)
  else match verifyRetry mac b c.dcid with
  | .error _ => (.ignored, c)
  | .ok _ =>
    (.restart, { c with token := h.token, didRetry := true, odcid := some c.dcid, dcid := h.scid, rscid := some h.scid })

/-- A datagram whose first packet is of one of these types. -/
def recvSpecial (mac : Bytes → Bytes) (c : Endpoint) (buf : Bytes) : Outcome × Endpoint :=
  match fromBytes c.scid.length (Cur.withSlice buf) with
  | (.error _, _) => (.ignored, c)
  | (.ok h, b) =>
    if h.ty = .versionNegotiation then recvVn c h
    else if h.ty = .retry then recvRetry mac c h b
    else (.ignored, c)

/-- Any other packet that is processed: it is counted (lib.rs:3786), and the first one
from the server may change the destination connection ID (lib.rs:3400-3427). -/
def recvOther (c : Endpoint) (dcid : Bytes) : Endpoint := { c with recvCount := c.recvCount + 1, dcid := dcid }

end Verif.Packet
