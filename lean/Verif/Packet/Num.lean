import Verif.Octets.Lemmas

/-!
Packet numbers: truncation, recovery and the duplicate filter
(`/repo/quiche/src/packet.rs`). `u64` and `u128` are modelled by `Nat`; packet
numbers are below 2^62, so no addition overflows.
-/

namespace Verif.Packet
open Verif

/-- `u64::BITS - x.leading_zeros()`: the number of significant bits. -/
def bitLen (x : Nat) : Nat := if x = 0 then 0 else x.log2 + 1

/-- `pkt_num_len` (packet.rs:569-575). -/
def pktNumLen (pn largestAcked : Nat) : Nat :=
  let numUnacked := (pn - largestAcked) + 1
  let minBits := bitLen numUnacked + 1
  (minBits + 7) / 8

/-- `decode_pkt_num` (packet.rs:634-652); `!pn_mask` is the complement in 64 bits. -/
def decodePktNum (largestPn truncatedPn pnLen : Nat) : Nat :=
  let pnNbits := pnLen * 8
  let expectedPn := largestPn + 1
  let pnWin := 1 <<< pnNbits
  let pnHwin := pnWin / 2
  let pnMask := pnWin - 1
  let candidatePn := (expectedPn &&& (2 ^ 64 - 1 - pnMask)) ||| truncatedPn
  if candidatePn + pnHwin ≤ expectedPn ∧ candidatePn < (1 <<< 62) - pnWin then candidatePn + pnWin
  else if candidatePn > expectedPn + pnHwin ∧ candidatePn ≥ pnWin then candidatePn - pnWin
  else candidatePn

/-- `PktNumWindow` (packet.rs:1124-1128). -/
structure Window where
  lower : Nat := 0
  window : Nat := 0
  deriving DecidableEq, Repr

namespace Window

/-- `PktNumWindow::upper` (packet.rs:1164-1166); `saturating_add` in 64 bits. -/
def upper (w : Window) : Nat := min (w.lower + 16 * 8) (2 ^ 64 - 1) - 1

/-- `u128::checked_shl(diff as u32).unwrap_or(0)`: the amount is cut to 32 bits, and
an amount of 128 and more gives none. -/
def shl (x diff : Nat) : Nat :=
  let d := diff % 2 ^ 32
  if d < 128 then (x <<< d) % 2 ^ 128 else 0

/-- `PktNumWindow::insert` (packet.rs:1131-1147). -/
def insert (w : Window) (seq : Nat) : Window :=
  if seq < w.lower then w else
  let w := if seq > w.upper then
      let diff := seq - w.upper
      { lower := w.lower + diff, window := shl w.window diff }
    else w
  { w with window := w.window ||| (1 <<< (w.upper - seq)) }

/-- `PktNumWindow::contains` (packet.rs:1149-1162). -/
def contains (w : Window) (seq : Nat) : Bool :=
  if seq > w.upper then false
  else if seq < w.lower then true
  else w.window &&& (1 <<< (w.upper - seq)) != 0

end Window

/-! ### Lemmas -/

theorem clear_low {x k : Nat} (hx : x < 2 ^ 64) (hk : k ≤ 64) :
    x &&& (2 ^ 64 - 1 - (2 ^ k - 1)) = x / 2 ^ k * 2 ^ k := by
  apply Nat.eq_of_testBit_eq
  intro i
  have e : 2 ^ 64 - 1 - (2 ^ k - 1) = 2 ^ 64 - (2 ^ k - 1 + 1) := by
    have : 0 < 2 ^ k := Nat.two_pow_pos k
    omega
  have hlt : 2 ^ k - 1 < 2 ^ 64 := by
    have := Nat.pow_le_pow_right (n := 2) (by omega) hk
    have : 0 < 2 ^ k := Nat.two_pow_pos k
    omega
  rw [Nat.testBit_and, e, Nat.testBit_two_pow_sub_succ hlt, Nat.testBit_two_pow_sub_one]
  rw [Nat.mul_comm, Nat.testBit_two_pow_mul, Nat.testBit_div_two_pow]
  by_cases h1 : i < k
  · have : ¬ (i ≥ k) := by omega
    simp [h1]; intro; omega
  · have h2 : i ≥ k := by omega
    have h3 : k + (i - k) = i := by omega
    by_cases h4 : i < 64
    · simp [h1, h2, h4]
    · have : x.testBit i = false := Nat.testBit_lt_two_pow (Nat.lt_of_lt_of_le hx (Nat.pow_le_pow_right (by omega) (by omega)))
      simp [h1, h2, this]

theorem candidate {x k t : Nat} (hx : x < 2 ^ 64) (hk : k ≤ 64) (ht : t < 2 ^ k) :
    (x &&& (2 ^ 64 - 1 - (2 ^ k - 1))) ||| t = x / 2 ^ k * 2 ^ k + t := by
  rw [clear_low hx hk, Nat.mul_comm, Nat.two_pow_add_eq_or_of_lt ht]

theorem decodePktNum_eq {l t n : Nat} (hl : l < 2 ^ 62) (hn : n = 1 ∨ n = 2 ∨ n = 3 ∨ n = 4) (ht : t < 256 ^ n) :
    decodePktNum l t n =
      let cand := (l + 1) / 256 ^ n * 256 ^ n + t
      if cand + 256 ^ n / 2 ≤ l + 1 ∧ cand < 2 ^ 62 - 256 ^ n then cand + 256 ^ n
      else if cand > l + 1 + 256 ^ n / 2 ∧ cand ≥ 256 ^ n then cand - 256 ^ n
      else cand := by
  have e : 256 ^ n = 2 ^ (n * 8) := by rw [show 256 = 2 ^ 8 from rfl, ← Nat.pow_mul, Nat.mul_comm]
  unfold decodePktNum
  simp only [Nat.one_shiftLeft]
  rw [candidate (by omega) (by omega) (by rw [← e]; exact ht), ← e]

theorem pktNumLen_pos (pn la : Nat) : 1 ≤ pktNumLen pn la := by
  unfold pktNumLen; simp only; omega

/-- The coding window is more than twice the range of unacknowledged numbers. -/
theorem pktNumLen_window (pn la : Nat) : 2 * (pn - la + 1) < 256 ^ pktNumLen pn la := by
  have e : ∀ n, 256 ^ n = 2 ^ (n * 8) := by
    intro n; rw [show 256 = 2 ^ 8 from rfl, ← Nat.pow_mul, Nat.mul_comm]
  rw [e]
  unfold pktNumLen bitLen
  simp only
  rw [if_neg (by omega)]
  have h := Nat.lt_log2_self (n := pn - la + 1)
  have h2 : (pn - la + 1).log2 + 2 ≤ ((pn - la + 1).log2 + 1 + 1 + 7) / 8 * 8 := by omega
  have h3 := Nat.pow_le_pow_right (n := 2) (by omega) h2
  have h4 : 2 ^ ((pn - la + 1).log2 + 2) = 2 * 2 ^ ((pn - la + 1).log2 + 1) := by
    rw [Nat.pow_succ 2 (_ + 1), Nat.mul_comm]
  omega

theorem pktNumLen_le (pn la : Nat) : pktNumLen pn la ≤ 4 ↔ pn - la + 1 < 2 ^ 31 := by
  unfold pktNumLen bitLen
  simp only
  rw [if_neg (by omega)]
  have : (pn - la + 1).log2 < 31 ↔ pn - la + 1 < 2 ^ 31 := Nat.log2_lt (by omega)
  omega

theorem bit_iff (x i : Nat) : (x &&& (1 <<< i) != 0) = x.testBit i := by
  rw [Nat.one_shiftLeft]
  cases h : x.testBit i
  · have : x &&& 2 ^ i = 0 := by
      apply Nat.eq_of_testBit_eq
      intro j
      rw [Nat.testBit_and, Nat.testBit_two_pow, Nat.zero_testBit]
      by_cases hj : i = j
      · subst hj; simp [h]
      · simp [hj]
    simp [this]
  · have : x &&& 2 ^ i ≠ 0 := by
      intro h0
      have : (x &&& 2 ^ i).testBit i = true := by
        rw [Nat.testBit_and, Nat.testBit_two_pow, h]; simp
      rw [h0] at this; simp at this
    simp [this]

end Verif.Packet
