/-!
Model of `Bandwidth` (`/repo/quiche/src/recovery/bandwidth.rs`; lines below are of that
file).

* A bandwidth is its number of bits per second, a `Nat` below `2 ^ 64`; a `Duration` is a
  `Nat` of nanoseconds.
* `none` is an arithmetic overflow, which panics in debug builds and wraps in release
  builds.
* Multiplication with a float (39-55) is not here: it is a parameter of the models using
  it.
-/

namespace Verif.Bbr

/-- `u64::MAX`. -/
abbrev u64Max : Nat := 2 ^ 64 - 1

/-- `u128::MAX`. -/
abbrev u128Max : Nat := 2 ^ 128 - 1

/-- `8 * NUM_NANOS_PER_SECOND` (28-32): nano-bits per byte. -/
abbrev nanoBits : Nat := 8000000000

/-- `u64` multiplication of the standard library, checked. -/
def mul64 (a b : Nat) : Option Nat := if a * b ≤ u64Max then some (a * b) else none

/-- `u128::saturating_mul`. -/
def satMul128 (a b : Nat) : Nat := if a * b ≤ u128Max then a * b else u128Max

/-- The quotient of `from_bytes_and_time_delta` (101-107). -/
def quotRate (bits nanos : Nat) : Nat := if bits < nanos then 1 else bits / nanos

/-- `Bandwidth::from_bytes_and_time_delta` (88-108). `as_nanos() as u64` drops the upper
bits. The multiplications are done from the left, as in Rust. -/
def fromBytes (bytes nanos : Nat) : Option Nat :=
  if bytes = 0 then some 0
  else
    let n := nanos % 2 ^ 64
    let n := if n = 0 then 1 else n
    match mul64 8 bytes with
    | none => none
    | some b =>
      match mul64 b 1000000000 with
      | none => none
      | some bits => some (quotRate bits n)

/-- `Bandwidth::from_bytes_per_second` (111-115). -/
def fromBytesPerSecond (v : Nat) : Option Nat := mul64 v 8

/-- `Bandwidth::to_bytes_per_second` (122-124). -/
def toBytesPerSecond (bw : Nat) : Nat := bw / 8

/-- `Bandwidth::from_kbits_per_second` (126-130). -/
def fromKbits (v : Nat) : Option Nat := mul64 v 1000

/-- `Bandwidth::infinite` (138-142). -/
abbrev infinite : Nat := u64Max

/-- `Bandwidth::transfer_time` (153-177), in nanoseconds. -/
def transferTime (bw bytes : Nat) : Nat :=
  if bw = u64Max then 0
  else if bw = 0 then 0
  else
    match mul64 bytes nanoBits with
    | some nanos => nanos / bw
    | none => min (bytes * nanoBits / bw) u64Max

/-- The slow path of `to_bytes_per_period` (206-211). -/
def slowBytes (bw nanos : Nat) : Nat := min (satMul128 bw nanos / nanoBits) u64Max

/-- `Bandwidth::to_bytes_per_period` (185-212). -/
def bytesPer (bw nanos : Nat) : Nat :=
  if bw = u64Max then (if nanos ≠ 0 then u64Max else 0)
  else if nanos ≤ u64Max then
    match mul64 bw nanos with
    | some bits => bits / nanoBits
    | none => slowBytes bw nanos
  else slowBytes bw nanos

/-- `Sub<Bandwidth>` (57-67). -/
def subBw (a b : Nat) : Option Nat := if b ≤ a then some (a - b) else none

/-- `from_bytes_and_time_delta` without the limits of `u64`, used by the models of the
congestion controller; `Verif.Props.C135.rate_exact` shows when it is what the code
computes. -/
def rate (bytes nanos : Nat) : Nat :=
  if bytes = 0 then 0 else quotRate (nanoBits * bytes) (if nanos = 0 then 1 else nanos)

end Verif.Bbr
