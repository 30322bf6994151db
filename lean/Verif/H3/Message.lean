import Verif.Codec.Fields
import Verif.Qpack.Model

/-!
Specification of what the bytes of an HTTP/3 stream say (RFC 9114, sections 4.1, 6.2 and 7.1),
apart from the code.
-/

namespace Verif.H3
open Verif

/-- `w` is a frame of type `ty` with that payload. -/
def Wire (ty : Nat) (payload w : Bytes) : Prop :=
  ∃ t l, w = t ++ l ++ payload ∧ IsVarint ty t ∧ IsVarint payload.length l

/-- A sequence of whole frames. -/
inductive Frames : List (Nat × Bytes) → Bytes → Prop where
  | nil : Frames [] []
  | snoc {fs bs ty payload w} : Frames fs bs → Wire ty payload w →
      Frames (fs ++ [(ty, payload)]) (bs ++ w)

/-- The beginning of a frame: its type, if it is there, and what of its payload is there. -/
inductive Begun : Option Nat → Bytes → Bytes → Prop where
  /-- not even the type is complete -/
  | none {b} : (∀ v x y, b ≠ x ++ y ∨ ¬ IsVarint v x) → Begun none [] b
  /-- the type is complete, the length is not -/
  | ty {t a b} : IsVarint t a → (∀ v x y, b ≠ x ++ y ∨ ¬ IsVarint v x) → Begun (some t) [] (a ++ b)
  /-- in the payload -/
  | payload {t n a l p} : IsVarint t a → IsVarint n l → p.length < n →
      Begun (some t) p (a ++ l ++ p)

/-- What an application gets from a stream: header lists, and the bytes of the body. -/
inductive Out where
  | headers (list : List Qpack.Header)
  | byte (b : UInt8)
  deriving DecidableEq, Repr

/-- What a frame gives: HEADERS (0x01) a header list; DATA (0x00) its payload; anything else
nothing. `limit` is the limit for the size of header lists. -/
def frameOut (limit : Nat) (f : Nat × Bytes) : List Out :=
  if f.1 = 0x01 then
    match Qpack.decode f.2 limit with
    | .ok hs => [.headers hs]
    | .error _ => []
  else if f.1 = 0x00 then f.2.map .byte
  else []

def framesOut (limit : Nat) (fs : List (Nat × Bytes)) : List Out := (fs.map (frameOut limit)).flatten

/-- What the beginning of a frame gives: the payload of DATA is handed out as it arrives. -/
def begunOut (ty : Option Nat) (p : Bytes) : List Out := if ty = some 0x00 then p.map .byte else []

/-- The beginning of DATA counts as a frame of a message. -/
def begunTy (ty : Option Nat) : List Nat := if ty = some 0x00 then [0x00] else []

/-- The content of a stream, or of the beginning of one: `hdr` and a sequence of frames, the last
of which may be incomplete. -/
def Says (limit : Nat) (hdr bs : Bytes) (tys : List Nat) (out : List Out) : Prop :=
  ∃ fs body ty p rest, bs = hdr ++ body ++ rest ∧ Frames fs body ∧ Begun ty p rest ∧
    tys = fs.map (·.1) ++ begunTy ty ∧ out = framesOut limit fs ++ begunOut ty p

/-- The types of frames this library knows (RFC 9114, section 11.2.1; RFC 9218, section 7.1). -/
def knownFrames : List Nat := [0x00, 0x01, 0x03, 0x04, 0x05, 0x07, 0x0d, 0xf0700, 0xf0701]

/-- The grammar of a message: header sections, content, and at most one trailer section after
content (RFC 9114, section 4.1). Frames of unknown types may be anywhere. -/
def Message (tys : List Nat) : Prop :=
  ∃ a b c, tys.filter (· ∈ knownFrames) =
      List.replicate a 0x01 ++ List.replicate b 0x00 ++ List.replicate c 0x01 ∧
    (a = 0 → b = 0 ∧ c = 0) ∧ c ≤ 1 ∧ (b = 0 → c = 0)

/-- Control streams: SETTINGS first, and never again; no frames of messages (RFC 9114, sections
6.2.1, 7.2). -/
def Control (tys : List Nat) : Prop :=
  tys = [] ∨ ∃ l, tys = 0x04 :: l ∧ ∀ t ∈ l, t ∉ [0x00, 0x01, 0x04, 0x05]

end Verif.H3
