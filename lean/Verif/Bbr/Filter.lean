/-!
Model of the windowed maximum filter used by BBR
(`/repo/quiche/src/recovery/gcongestion/bbr/windowed_filter.rs`; lines below are of that
file).

* Times are `Nat` (round trips). A subtraction below zero, and `unwrap` of an estimate not
  there, are panics: the result is `none`.
* The order of samples is a parameter: `gt a b` stands for `a > b`, `==` for equality.
-/

namespace Verif.Bbr

/-- `Sample` (34-38). -/
structure FSample (T : Type) where
  value : T
  time : Nat
  deriving DecidableEq, Repr

/-- `WindowedFilter` (40-44): all three estimates are there or none. (`new`, `clear` and
`reset` set all three; `update` only replaces estimates that are there.) -/
structure Filter (T : Type) where
  win : Nat
  est : Option (FSample T × FSample T × FSample T)
  deriving Repr

variable {T : Type}

/-- `WindowedFilter::new` (52-57). -/
def Filter.new (win : Nat) : Filter T := ⟨win, none⟩

/-- `WindowedFilter::reset` (59-66). -/
def Filter.reset (f : Filter T) (v : FSample T) : Filter T := { f with est := some (v, v, v) }

/-- `WindowedFilter::clear` (80-82). -/
def Filter.clear (f : Filter T) : Filter T := { f with est := none }

/-- `get_best` (68-70). -/
def Filter.best (f : Filter T) : Option T := f.est.map fun e => e.1.value

/-- `get_second_best` (72-74). -/
def Filter.second (f : Filter T) : Option T := f.est.map fun e => e.2.1.value

/-- `get_third_best` (76-78). -/
def Filter.third (f : Filter T) : Option T := f.est.map fun e => e.2.2.value

/-- A new second or third best (98-109). -/
def place (gt : T → T → Bool) (e : FSample T × FSample T × FSample T) (v : FSample T) : FSample T × FSample T × FSample T :=
  if gt v.value e.2.1.value = true then (e.1, v, v)
  else if gt v.value e.2.2.value = true then (e.1, e.2.1, v)
  else e

/-- Estimates promoted when the best one expires (113-129). -/
def promote (win : Nat) (e : FSample T × FSample T × FSample T) (v : FSample T) : FSample T × FSample T × FSample T :=
  if v.time - e.2.1.time > win then (e.2.2, v, v) else (e.2.1, e.2.2, v)

/-- Expiry and ageing of the estimates (111-156). -/
def expire [BEq T] (win : Nat) (e : FSample T × FSample T × FSample T) (v : FSample T) : FSample T × FSample T × FSample T :=
  if v.time - e.1.time > win then promote win e v
  else if (e.2.1.value == e.1.value) = true ∧ v.time - e.2.1.time > win / 4 then (e.1, v, v)
  else if (e.2.2.value == e.2.1.value) = true ∧ v.time - e.2.2.time > win / 2 then (e.1, e.2.1, v)
  else e

/-- All subtractions of times made by `update` have a result: the new time is not before
that of an estimate. (Not all of them are made every time; that of the third estimate is
made whenever the sample is not a new best.) -/
def Before (e : FSample T × FSample T × FSample T) (t : Nat) : Bool :=
  decide (e.1.time ≤ t ∧ e.2.1.time ≤ t ∧ e.2.2.time ≤ t)

/-- `WindowedFilter::update` (84-157). -/
def Filter.update [BEq T] (gt : T → T → Bool) (f : Filter T) (v : FSample T) : Option (Filter T) :=
  match f.est with
  | none => some (f.reset v)
  | some e =>
    if gt v.value e.1.value = true then some (f.reset v)
    else if Before e v.time = true then
      if v.time - e.2.2.time > f.win then some (f.reset v)
      else some { f with est := some (expire f.win (place gt e v) v) }
    else none

/-- The calls of a filter. -/
inductive FOp (T : Type) where
  | update (v : FSample T)
  | reset (v : FSample T)
  | clear

/-- The filter after calls, the latest first. -/
def feed [BEq T] (gt : T → T → Bool) (win : Nat) : List (FOp T) → Option (Filter T)
  | [] => some (.new win)
  | .update v :: l => (feed gt win l).bind fun f => f.update gt v
  | .reset v :: l => (feed gt win l).map fun f => f.reset v
  | .clear :: l => (feed gt win l).map Filter.clear

end Verif.Bbr
