/-!
Model of the windowed minimum/maximum filter (`/repo/quiche/src/minmax.rs`). Times and
durations are `Nat`; `duration_since` is 0 for earlier times, like subtraction of `Nat`.
The order of values is a parameter `le`: `≤` gives `running_min`, `≥` gives
`running_max`.
-/

namespace Verif.Minmax

/-- `MinmaxSample` (minmax.rs:62-66). -/
structure Sample (T : Type) where
  time : Nat
  value : T
  deriving DecidableEq, Repr

/-- `Minmax` (minmax.rs:68-70). -/
structure Filter (T : Type) where
  e0 : Sample T
  e1 : Sample T
  e2 : Sample T
  deriving DecidableEq, Repr

variable {T : Type}

/-- `Minmax::new` (minmax.rs:81-88) and `reset` (minmax.rs:91-99). -/
def reset (time : Nat) (meas : T) : Filter T := ⟨⟨time, meas⟩, ⟨time, meas⟩, ⟨time, meas⟩⟩

/-- The second step of the shift (minmax.rs:158-162). -/
def shiftAgain (f : Filter T) (win : Nat) (v : Sample T) : Filter T :=
  if v.time - f.e0.time > win then ⟨f.e1, f.e2, v⟩ else f

/-- `subwin_update` (minmax.rs:143-178). `quarter` and `half` stand for `win.div_f32(4.0)`
and `win.div_f32(2.0)`; nothing is assumed of them. -/
def subwinUpdate (quarter half : Nat → Nat) (f : Filter T) (win : Nat) (v : Sample T) : Filter T :=
  let delta := v.time - f.e0.time
  if delta > win then shiftAgain ⟨f.e1, f.e2, v⟩ win v
  else if f.e1.time = f.e0.time ∧ delta > quarter win then ⟨f.e0, v, v⟩
  else if f.e2.time = f.e1.time ∧ delta > half win then ⟨f.e0, f.e1, v⟩
  else f

/-- A new second or third best (minmax.rs:112-117). -/
def replace (le : T → T → Bool) (f : Filter T) (v : Sample T) : Filter T :=
  if le v.value f.e1.value then ⟨f.e0, v, v⟩
  else if le v.value f.e2.value then ⟨f.e0, f.e1, v⟩
  else f

/-- `running_min` (minmax.rs:102-119) and `running_max` (minmax.rs:122-140). -/
def running (le : T → T → Bool) (quarter half : Nat → Nat) (f : Filter T) (win : Nat) (v : Sample T) : Filter T :=
  if le v.value f.e0.value ∨ v.time - f.e2.time > win then reset v.time v.value
  else subwinUpdate quarter half (replace le f v) win v

/-- The current estimate (`Deref`, minmax.rs:72-78). -/
def Filter.estimate (f : Filter T) : T := f.e0.value

/-- The filter after samples, the latest first in the list; the last one made the
filter. -/
def feed (le : T → T → Bool) (quarter half : Nat → Nat) (win : Nat) (first : Sample T) : List (Sample T) → Filter T
  | [] => reset first.time first.value
  | v :: l => running le quarter half (feed le quarter half win first l) win v

end Verif.Minmax
