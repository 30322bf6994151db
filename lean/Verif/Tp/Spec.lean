import Verif.Tp.Model

/-!
The format of transport parameters (RFC 9000, section 18), apart from the code: a sequence
of entries, each an identifier, a length and a value.
-/

namespace Verif.Tp
open Verif

/-- An identifier and a value. -/
abbrev Entry := Nat × Bytes

/-- How an entry is written. -/
def entryFields (e : Entry) : List Field := [.int e.1, .int e.2.length, .raw e.2]

/-- `bs` is a sequence of these entries. -/
def Wire (es : List Entry) (bs : Bytes) : Prop := Spells (es.flatMap entryFields) bs

/-- The value begins with the integer `v`. -/
def Leads (val : Bytes) (v : Nat) : Prop := ∃ b t, val = b ++ t ∧ IsVarint v b

/-- Identifiers whose value is an integer. -/
def intIds : List Nat := [0x01, 0x03, 0x04, 0x05, 0x06, 0x07, 0x08, 0x09, 0x0a, 0x0b, 0x0e, 0x20]

/-- Identifiers only a server may send. -/
def serverIds : List Nat := [0x00, 0x02, 0x0d, 0x10]

/-- All identifiers that mean something. -/
def knownIds : List Nat := [0x00, 0x01, 0x02, 0x03, 0x04, 0x05, 0x06, 0x07, 0x08, 0x09, 0x0a, 0x0b, 0x0c, 0x0d, 0x0e,
  0x0f, 0x10, 0x20]

/-- The values permitted (RFC 9000, 18.2). -/
def InRange (id v : Nat) : Prop :=
  (id = 0x03 → 1200 ≤ v) ∧ (id = 0x08 ∨ id = 0x09 → v ≤ 2 ^ 60) ∧ (id = 0x0a → v ≤ 20) ∧ (id = 0x0b → v < 2 ^ 14) ∧
    (id = 0x0e → 2 ≤ v)

/-- An entry the receiver may accept. -/
structure Permitted (toServer : Bool) (e : Entry) : Prop where
  server : e.1 ∈ serverIds → toServer = false
  token : e.1 = 0x02 → 16 ≤ e.2.length
  int : e.1 ∈ intIds → ∃ v, Leads e.2 v ∧ InRange e.1 v

/-- `v` is the value of an integer parameter, `d` if it is missing. -/
def IntIs (es : List Entry) (id d v : Nat) : Prop :=
  match es.lookup id with
  | none => v = d
  | some val => Leads val v

/-- The same for a parameter without a default. -/
def OptIntIs (es : List Entry) (id : Nat) (d o : Option Nat) : Prop :=
  match es.lookup id with
  | none => o = d
  | some val => ∃ v, o = some v ∧ Leads val v

/-- The same for byte strings. -/
def RawIs (es : List Entry) (id : Nat) (d o : Option Bytes) : Prop := o = (es.lookup id).or d

/-- The same for the stateless reset token: the first 16 bytes. -/
def TokenIs (es : List Entry) (id : Nat) (d o : Option Nat) : Prop :=
  o = ((es.lookup id).map fun val => beVal (val.take 16)).or d

/-- The unknown parameters kept: in order, those that fit, 8 bytes being charged for the
identifier. -/
def keep : Nat → List Entry → Nat × List Entry
  | room, [] => (room, [])
  | room, e :: es =>
    if e.1 ∉ knownIds ∧ e.2.length + 8 < room then
      ((keep (room - (e.2.length + 8)) es).1, e :: (keep (room - (e.2.length + 8)) es).2)
    else keep room es

/-- `tp` is what the entries say; `d` has the values of what is missing. -/
structure Meaning (d : Params) (es : List Entry) (tp : Params) : Prop where
  originalDcid : RawIs es 0x00 d.originalDcid tp.originalDcid
  maxIdleTimeout : IntIs es 0x01 d.maxIdleTimeout tp.maxIdleTimeout
  resetToken : TokenIs es 0x02 d.resetToken tp.resetToken
  maxUdpPayload : IntIs es 0x03 d.maxUdpPayload tp.maxUdpPayload
  maxData : IntIs es 0x04 d.maxData tp.maxData
  maxStreamDataBidiLocal : IntIs es 0x05 d.maxStreamDataBidiLocal tp.maxStreamDataBidiLocal
  maxStreamDataBidiRemote : IntIs es 0x06 d.maxStreamDataBidiRemote tp.maxStreamDataBidiRemote
  maxStreamDataUni : IntIs es 0x07 d.maxStreamDataUni tp.maxStreamDataUni
  maxStreamsBidi : IntIs es 0x08 d.maxStreamsBidi tp.maxStreamsBidi
  maxStreamsUni : IntIs es 0x09 d.maxStreamsUni tp.maxStreamsUni
  ackDelayExponent : IntIs es 0x0a d.ackDelayExponent tp.ackDelayExponent
  maxAckDelay : IntIs es 0x0b d.maxAckDelay tp.maxAckDelay
  disableMigration : tp.disableMigration = ((es.lookup 0x0c).isSome || d.disableMigration)
  activeCidLimit : IntIs es 0x0e d.activeCidLimit tp.activeCidLimit
  initialScid : RawIs es 0x0f d.initialScid tp.initialScid
  retryScid : RawIs es 0x10 d.retryScid tp.retryScid
  maxDatagram : OptIntIs es 0x20 d.maxDatagram tp.maxDatagram
  unknown : tp.unknown = d.unknown.map fun u => { capacity := (keep u.capacity es).1, params := u.params ++ (keep u.capacity es).2 }

/-- What an endpoint assumes of its peer without any parameters (RFC 9000, 18.2). -/
def defaults (track : Option Nat) : Params :=
  { maxIdleTimeout := 0, maxUdpPayload := 65527, maxData := 0, maxStreamDataBidiLocal := 0, maxStreamDataBidiRemote := 0,
    maxStreamDataUni := 0, maxStreamsBidi := 0, maxStreamsUni := 0, ackDelayExponent := 3, maxAckDelay := 25,
    disableMigration := false, activeCidLimit := 2, originalDcid := none, resetToken := none, initialScid := none,
    retryScid := none, maxDatagram := none, unknown := track.map fun n => { capacity := n, params := [] } }

end Verif.Tp
