import Verif.Packet.PnManager
import Verif.H3.Config

/-!
Model of `/repo/quiche/src/rand.rs`: the random numbers below a bound. The words drawn from the
TLS library are a list of numbers below 2^64. The two uses of the function are those of
`Verif.Packet.PnManager` (`arm_skip_counter`) and `Verif.H3.Config` (`grease_value`).
-/

namespace Verif.Rand

/-- `u64::MAX`. -/
abbrev wordMax : Nat := 2 ^ 64 - 1

/-- `chunk_size` (rand.rs:50). -/
def chunk (max : Nat) : Nat := wordMax / max

/-- `end_of_last_chunk` (rand.rs:51). -/
def lastEnd (max : Nat) : Nat := chunk max * max

/-- The loop of `rand_u64_uniform` (rand.rs:53-59): the number and the words not drawn yet;
`none` if it waits for more. -/
def loop (max : Nat) : List Nat → Option (Nat × List Nat)
  | [] => none
  | r :: l => if r ≥ lastEnd max then loop max l else some (r / chunk max, l)

/-- `rand_u64_uniform` (rand.rs:49-60): the error is the division by zero. -/
def uniform (max : Nat) (draws : List Nat) : Except Unit (Option (Nat × List Nat)) :=
  if max = 0 then .error () else .ok (loop max draws)

/-- The number, if there is one. -/
def value (max : Nat) (draws : List Nat) : Option Nat :=
  match uniform max draws with
  | .ok (some (v, _)) => some v
  | _ => none

/-- `arm_skip_counter` (packet.rs:1093-1121) with the words drawn: `none` if it panics. -/
def armed (cwnd mds : Nat) (draws : List Nat) : Option Nat :=
  Packet.armCounter cwnd mds fun b => (value b draws).getD 0

/-- `grease_value` (h3/mod.rs:3363-3366) with the words drawn. -/
def grease (draws : List Nat) : Option Nat :=
  (value H3.greaseBound draws).map H3.greaseValue

end Verif.Rand
