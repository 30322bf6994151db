import Verif.Octets.Model
/-!
Model of Extensible Priorities (`/repo/quiche/src/h3/mod.rs`): reading a priority
field value, writing one, the slot of the last PRIORITY_UPDATE of a stream, and
the urgency that the transport is given.

The parser of Structured Fields is that of the `sfv` crate, which is not in the
repository: it is any function from bytes to the members of a dictionary. A later
member replaces an earlier one with the same key, as in the crate's map.
-/

namespace Verif.Prio

/-- `sfv::BareItem`. -/
inductive Bare where
  | int (v : Int)
  | decimal
  | string
  | bytes
  | bool (b : Bool)
  | token
  deriving DecidableEq, Repr

/-- `sfv::ListEntry`. -/
inductive Entry where
  | item (b : Bare)
  | inner
  deriving DecidableEq, Repr

/-- The members of a dictionary, in the order of the field. -/
abbrev Dict := List (String × Entry)

/-- `Dictionary::get`. -/
def Dict.get (d : Dict) (k : String) : Option Entry :=
  d.foldl (fun acc m => if m.1 = k then some m.2 else acc) none

/-- `Priority` (h3/mod.rs:850-855). -/
structure Priority where
  urgency : Nat
  incremental : Bool
  deriving DecidableEq, Repr

/-- `Priority::default` (h3/mod.rs:857-864). -/
def Priority.default : Priority := ⟨3, false⟩

/-- The urgency of `try_from` (h3/mod.rs:903-928); `none` is `Error::Done`. -/
def readUrgency (d : Dict) : Option Nat :=
  match d.get "u" with
  | some (.item (.int v)) => if 0 ≤ v ∧ v ≤ 7 then some v.toNat else some 7
  | some _ => none
  | none => some 3

/-- The incremental flag of `try_from` (h3/mod.rs:930-936). -/
def readIncremental (d : Dict) : Option Bool :=
  match d.get "i" with
  | some (.item (.bool b)) => some b
  | some (.item _) => none
  | _ => some false

/-- `Priority::try_from` (h3/mod.rs:896-939). -/
def tryFrom (parse : List UInt8 → Option Dict) (value : List UInt8) : Option Priority :=
  match parse value with
  | none => none
  | some d =>
    match readUrgency d with
    | none => none
    | some u =>
      match readIncremental d with
      | none => none
      | some i => some ⟨u, i⟩

/-- `u8::clamp` to the bounds of urgency. -/
def clamp (u : Nat) : Nat := if u > 7 then 7 else u

/-- The value of `send_priority_update_for_request` (h3/mod.rs:1981-1991). The
urgency is one digit. -/
def fieldValue (p : Priority) : List UInt8 :=
  [117, 61, UInt8.ofNat (48 + clamp p.urgency)] ++ if p.incremental then [44, 105] else []

/-- The urgency of the transport for a response (h3/mod.rs:1333-1338, 1453-1458);
`none` when the addition of `u8` overflows. -/
def transport (p : Priority) : Option Nat :=
  let u := clamp p.urgency + 124
  if u > 255 then none else some u

/-- Events and calls around the stored PRIORITY_UPDATE of one stream. -/
inductive Op where
  | update (v : List UInt8)
  | take
  deriving DecidableEq, Repr

/-- What the application sees. -/
inductive Out where
  | event
  | value (v : List UInt8)
  | done
  deriving DecidableEq, Repr

/-- Storing an update (h3/mod.rs:3303-3312) and `take_last_priority_update`
(h3/mod.rs:2065-2073, h3/stream.rs:926-938). -/
def step (slot : Option (List UInt8)) : Op → Out × Option (List UInt8)
  | .update v => (if slot.isSome then .done else .event, some v)
  | .take =>
    match slot with
    | some v => (.value v, none)
    | none => (.done, none)

/-- A sequence of them. -/
def run (slot : Option (List UInt8)) : List Op → List Out × Option (List UInt8)
  | [] => ([], slot)
  | o :: ops =>
    let (x, slot') := step slot o
    let (xs, slot'') := run slot' ops
    (x :: xs, slot'')

end Verif.Prio
