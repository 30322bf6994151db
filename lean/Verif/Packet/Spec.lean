import Verif.Packet.Header

/-!
Packet headers on the wire (RFC 8999, section 5; RFC 9000, section 17), independent of
the parser.
-/

namespace Verif.Packet
open Verif

/-- What follows the connection IDs in a long header with first byte `b`, up to the
point where the parser stops. -/
def LongRest (b version : Nat) (fs : List Field) (tail : Bytes) (h : Header) : Prop :=
  if version = 0 then
    ∃ l : List Nat, fs = l.map (.fix 4) ∧ tail = [] ∧ h.ty = .versionNegotiation ∧ h.token = none ∧
      h.versions = some l
  else match b / 16 % 4 with
  | 0 => ∃ t : Bytes, fs = [.int t.length, .raw t] ∧ h.ty = .initial ∧ h.token = some t ∧ h.versions = none
  | 1 => fs = [] ∧ h.ty = .zeroRTT ∧ h.token = none ∧ h.versions = none
  | 2 => fs = [] ∧ h.ty = .handshake ∧ h.token = none ∧ h.versions = none
  | _ => ∃ t : Bytes, fs = [.raw t] ∧ tail.length = 16 ∧ h.ty = .retry ∧ h.token = some t ∧ h.versions = none

/-- Fields `fs`, followed by `tail`, are the header `h` (up to the packet number). -/
def HdrWire (dcidLen : Nat) (fs : List Field) (tail : Bytes) (h : Header) : Prop :=
  h.pktNum = 0 ∧ h.pktNumLen = 0 ∧ h.keyPhase = false ∧
  ((∃ b, b < 128 ∧ fs = [.fix 1 b, .raw h.dcid] ∧ h.dcid.length = dcidLen ∧ h.ty = .short ∧ h.version = 0 ∧
      h.scid = [] ∧ h.token = none ∧ h.versions = none) ∨
   (∃ b rest, 128 ≤ b ∧
      fs = [.fix 1 b, .fix 4 h.version, .fix 1 h.dcid.length, .raw h.dcid, .fix 1 h.scid.length, .raw h.scid] ++ rest ∧
      (h.version = 1 → h.dcid.length ≤ 20 ∧ h.scid.length ≤ 20) ∧
      LongRest b h.version rest tail h))

/-- Headers that can be sent, with fields in range. -/
structure InRange (h : Header) : Prop where
  version : h.version < 2 ^ 32 ∧ (h.ty ≠ .short → h.version ≠ 0)
  ty : h.ty ≠ .versionNegotiation
  dcid : h.dcid.length ≤ 20
  scid : h.scid.length ≤ 20
  token : ∀ t, h.token = some t → t.length < 2 ^ 62
  retry : h.ty = .retry → h.token.isSome
  pktNumLen : h.pktNumLen ≤ 4

/-- What of a header its parser can see: the packet number is protected, a short header
has no version and source connection ID, and the token is there in Initial and Retry
packets only. -/
def visible (h : Header) : Header :=
  { ty := h.ty
    version := if h.ty = .short then 0 else h.version
    dcid := h.dcid
    scid := if h.ty = .short then [] else h.scid
    token := match h.ty with
      | .initial => some (h.token.getD [])
      | .retry => h.token
      | _ => none }

end Verif.Packet
