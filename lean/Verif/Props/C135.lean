import Verif.Bbr.Bandwidth

/-!
C135. Conversions between bytes, time and bandwidth are the exact quotients, rounded down
and saturated, whichever arithmetic path computes them.
-/

namespace Verif.Props.C135

open Verif.Bbr

/-- The exact number of bytes of `bw` bits per second in `nanos` nanoseconds. -/
def exactBytes (bw nanos : Nat) : Nat := bw * nanos / 8000000000

/-- The exact time of `bytes` bytes at `bw` bits per second, in nanoseconds. -/
def exactTime (bw bytes : Nat) : Nat := bytes * 8000000000 / bw

/-- The bytes of a period are the exact quotient, saturated, for every bandwidth but the
one standing for infinity and every representable duration and beyond. -/
theorem bytes_exact (bw nanos : Nat) (h : bw < 2 ^ 64 - 1) :
    bytesPer bw nanos = min (exactBytes bw nanos) (2 ^ 64 - 1) := by
  have hslow : slowBytes bw nanos = min (exactBytes bw nanos) (2 ^ 64 - 1) := by
    unfold slowBytes satMul128 exactBytes
    by_cases hs : bw * nanos ≤ u128Max
    · rw [if_pos hs]
    · rw [if_neg hs]
      simp only [u128Max, u64Max, nanoBits] at *
      omega
  unfold bytesPer
  rw [if_neg (show ¬ bw = u64Max by simp only [u64Max]; omega)]
  by_cases hn : nanos ≤ u64Max
  · rw [if_pos hn]
    unfold mul64
    by_cases hm : bw * nanos ≤ u64Max
    · rw [if_pos hm]
      unfold exactBytes
      simp only [u64Max, nanoBits] at *
      omega
    · rw [if_neg hm]
      exact hslow
  · rw [if_neg hn]
    exact hslow

/-- The infinite bandwidth gives the largest count in any time but none. -/
theorem bytes_infinite (nanos : Nat) :
    bytesPer (2 ^ 64 - 1) nanos = if nanos = 0 then 0 else 2 ^ 64 - 1 := by
  unfold bytesPer
  rw [if_pos rfl]
  by_cases h : nanos = 0
  · rw [if_pos h, if_neg (by simp [h])]
  · rw [if_neg h, if_pos h]

/-- A checked product. -/
theorem mul64_cases (a b : Nat) : (a * b ≤ 2 ^ 64 - 1 ∧ mul64 a b = some (a * b)) ∨ (2 ^ 64 - 1 < a * b ∧ mul64 a b = none) := by
  unfold mul64
  by_cases h : a * b ≤ 2 ^ 64 - 1
  · exact Or.inl ⟨h, if_pos h⟩
  · exact Or.inr ⟨by omega, if_neg h⟩

/-- The time of a transfer is the exact quotient, saturated; it is zero for no and for
infinite bandwidth. -/
theorem time_exact (bw bytes : Nat) (h0 : bw ≠ 0) (h : bw < 2 ^ 64 - 1) :
    transferTime bw bytes = min (exactTime bw bytes) (2 ^ 64 - 1) := by
  have key : ∀ K : Nat, (match mul64 bytes K with | some nanos => nanos / bw | none => min (bytes * K / bw) u64Max) = min (bytes * K / bw) (2 ^ 64 - 1) := by
    intro K
    have hle : bytes * K / bw ≤ bytes * K := Nat.div_le_self _ _
    rcases mul64_cases bytes K with ⟨hm, e⟩ | ⟨-, e⟩
    · rw [e]
      exact (Nat.min_eq_left (Nat.le_trans hle hm)).symm
    · rw [e]
  unfold transferTime
  rw [if_neg (show ¬ bw = u64Max from Nat.ne_of_lt h), if_neg h0]
  exact key nanoBits

/-- No or infinite bandwidth: no time. -/
theorem time_none (bytes : Nat) : transferTime 0 bytes = 0 ∧ transferTime (2 ^ 64 - 1) bytes = 0 := by
  constructor <;> simp [transferTime, u64Max]

/-- Up to 2305843009 bytes and 584 years, the rate of an amount in a time is the exact
quotient, but at least one bit per second for a positive amount, and a time of zero counts
as one nanosecond. Nothing overflows. -/
theorem rate_exact (bytes nanos : Nat) (hb : bytes ≤ 2305843009) (hn : nanos < 2 ^ 64) :
    fromBytes bytes nanos = some (rate bytes nanos)
    ∧ rate bytes nanos = if bytes = 0 then 0 else Nat.max 1 (bytes * 8000000000 / Nat.max nanos 1) := by
  have hq : ∀ bits n : Nat, 0 < n → 0 < bits → quotRate bits n = Nat.max 1 (bits / n) := by
    intro bits n h0 hbits
    unfold quotRate
    by_cases hlt : bits < n
    · rw [if_pos hlt, Nat.div_eq_of_lt hlt]
      rfl
    · rw [if_neg hlt]
      have : 1 ≤ bits / n := (Nat.le_div_iff_mul_le h0).2 (by omega)
      exact (Nat.max_eq_right this).symm
  have hmx : (if nanos = 0 then 1 else nanos) = Nat.max nanos 1 := by
    by_cases h0 : nanos = 0
    · rw [if_pos h0, h0]
      rfl
    · rw [if_neg h0]
      exact (Nat.max_eq_left (by omega)).symm
  have hpos : 0 < Nat.max nanos 1 := Nat.lt_of_lt_of_le Nat.one_pos (Nat.le_max_right _ _)
  have hK : ∀ K : Nat, 8 * bytes * K ≤ 2 ^ 64 - 1 → 8 * bytes ≤ 2 ^ 64 - 1 → ∀ n, (match mul64 8 bytes with
      | none => none
      | some b => match mul64 b K with
        | none => none
        | some bits => some (quotRate bits n)) = some (quotRate (8 * bytes * K) n) := by
    intro K h1 h2 n
    rcases mul64_cases 8 bytes with ⟨-, e⟩ | ⟨h, -⟩
    · rw [e]
      dsimp only
      rcases mul64_cases (8 * bytes) K with ⟨-, e⟩ | ⟨h, -⟩
      · rw [e]
      · omega
    · omega
  have hR : ∀ K : Nat, K = 8000000000 → K * bytes = bytes * K := fun K _ => Nat.mul_comm _ _
  constructor
  · unfold fromBytes rate
    by_cases h0 : bytes = 0
    · rw [if_pos h0, if_pos h0]
    · rw [if_neg h0, if_neg h0, Nat.mod_eq_of_lt hn]
      have e := hK 1000000000 (by omega) (by omega) (if nanos = 0 then 1 else nanos)
      have e2 : 8 * bytes * 1000000000 = 8000000000 * bytes := by omega
      rw [e2] at e
      exact e
  · unfold rate
    by_cases h0 : bytes = 0
    · rw [if_pos h0, if_pos h0]
    · rw [if_neg h0, if_neg h0, hmx, hq _ _ hpos (Nat.mul_pos (by decide) (by omega)), hR nanoBits rfl]

/-- Larger amounts overflow: a panic in debug builds, a wrapped rate in release builds. -/
theorem rate_overflows (bytes nanos : Nat) (hb : 2305843009 < bytes) : fromBytes bytes nanos = none := by
  have hK : ∀ K : Nat, 2 ^ 64 - 1 < 8 * bytes * K → ∀ n, (match mul64 8 bytes with
      | none => none
      | some b => match mul64 b K with
        | none => none
        | some bits => some (quotRate bits n)) = none := by
    intro K h n
    rcases mul64_cases 8 bytes with ⟨-, e⟩ | ⟨-, e⟩
    · rw [e]
      dsimp only
      rcases mul64_cases (8 * bytes) K with ⟨h', -⟩ | ⟨-, e⟩
      · omega
      · rw [e]
    · rw [e]
  unfold fromBytes
  rw [if_neg (by omega)]
  exact hK 1000000000 (by omega) _

/-- More bandwidth or time, more bytes. -/
theorem bytes_mono (bw bw' t t' : Nat) (hb : bw ≤ bw') (ht : t ≤ t') (h : bw' ≤ 2 ^ 64 - 1) :
    bytesPer bw t ≤ bytesPer bw' t' := by
  by_cases hi' : bw' = 2 ^ 64 - 1
  · rw [hi', bytes_infinite]
    by_cases hi : bw = 2 ^ 64 - 1
    · rw [hi, bytes_infinite]
      split <;> split <;> omega
    · rw [bytes_exact bw t (by omega)]
      by_cases h0 : t' = 0
      · have : t = 0 := by omega
        simp [this, exactBytes]
      · rw [if_neg h0]
        exact Nat.min_le_right _ _
  · rw [bytes_exact bw t (by omega), bytes_exact bw' t' (by omega)]
    have : exactBytes bw t ≤ exactBytes bw' t' := Nat.div_le_div_right (Nat.mul_le_mul hb ht)
    omega

/-- More bytes or less bandwidth, more time. -/
theorem time_mono (bw bw' n n' : Nat) (h0 : bw ≠ 0) (hb : bw ≤ bw') (hn : n ≤ n') (h : bw' < 2 ^ 64 - 1) :
    transferTime bw' n ≤ transferTime bw n' := by
  rw [time_exact bw n' h0 (by omega), time_exact bw' n (by omega) h]
  have h1 : exactTime bw' n ≤ exactTime bw n := Nat.div_le_div_left hb (by omega)
  have h2 : exactTime bw n ≤ exactTime bw n' := Nat.div_le_div_right (Nat.mul_le_mul_right _ hn)
  omega

/-- What fits in the time a transfer takes is not more than the transfer. -/
theorem bytes_of_time (bw n : Nat) (h0 : bw ≠ 0) (h : bw < 2 ^ 64 - 1) :
    bytesPer bw (transferTime bw n) ≤ n := by
  rw [bytes_exact bw _ h, time_exact bw n h0 h]
  have h1 : bw * (n * 8000000000 / bw) ≤ n * 8000000000 := Nat.mul_div_le _ _
  have h2 : bw * (min (exactTime bw n) (2 ^ 64 - 1)) ≤ n * 8000000000 :=
    Nat.le_trans (Nat.mul_le_mul_left _ (Nat.min_le_left _ _)) h1
  have h3 : exactBytes bw (min (exactTime bw n) (2 ^ 64 - 1)) ≤ n := by
    unfold exactBytes
    omega
  omega

/-- The transfer of what fits in a time takes no longer than it. -/
theorem time_of_bytes (bw t : Nat) (h0 : bw ≠ 0) (h : bw < 2 ^ 64 - 1) :
    transferTime bw (bytesPer bw t) ≤ t := by
  rw [bytes_exact bw t h, time_exact bw _ h0 h]
  have h1 : bw * t / 8000000000 * 8000000000 ≤ bw * t := Nat.div_mul_le_self _ _
  have h2 : min (exactBytes bw t) (2 ^ 64 - 1) * 8000000000 ≤ t * bw := by
    rw [Nat.mul_comm t bw]
    exact Nat.le_trans (Nat.mul_le_mul_right _ (Nat.min_le_left _ _)) h1
  have h3 : exactTime bw (min (exactBytes bw t) (2 ^ 64 - 1)) ≤ t := by
    unfold exactTime
    exact Nat.div_le_of_le_mul (by rw [Nat.mul_comm bw t]; exact h2)
  omega

/-- A measured rate is not more than what was measured: over the time measured it gives
back at most the amount, once the time is below eight seconds per byte. -/
theorem rate_bytes (bytes nanos : Nat) (hn0 : nanos ≠ 0) (ht : nanos ≤ bytes * 8000000000)
    (hb : bytes ≤ 2305843009) : bytesPer (rate bytes nanos) nanos ≤ bytes := by
  have hn : nanos < 2 ^ 64 := by omega
  rw [(rate_exact bytes nanos hb hn).2]
  have hb0 : bytes ≠ 0 := by
    intro h
    simp [h] at ht
    omega
  rw [if_neg hb0]
  have hmx : Nat.max nanos 1 = nanos := Nat.max_eq_left (by omega)
  rw [hmx]
  have hq : 1 ≤ bytes * 8000000000 / nanos := (Nat.le_div_iff_mul_le (by omega)).2 (by omega)
  rw [show Nat.max 1 (bytes * 8000000000 / nanos) = bytes * 8000000000 / nanos from Nat.max_eq_right hq]
  have hle : bytes * 8000000000 / nanos ≤ bytes * 8000000000 := Nat.div_le_self _ _
  rw [bytes_exact _ _ (by omega)]
  have h1 : bytes * 8000000000 / nanos * nanos ≤ bytes * 8000000000 := Nat.div_mul_le_self _ _
  have h2 : exactBytes (bytes * 8000000000 / nanos) nanos ≤ bytes := by
    unfold exactBytes
    omega
  omega

/-- The difference of two bandwidths, if there is one. -/
theorem sub_exact (a b c : Nat) : subBw a b = some c ↔ a = b + c := by
  unfold subBw
  by_cases h : b ≤ a
  · rw [if_pos h]
    simp only [Option.some.injEq]
    omega
  · rw [if_neg h]
    simp only [reduceCtorEq, false_iff]
    omega

/-- Bytes per second are exact while eight times the number is a `u64`. -/
theorem bytesPerSecond_exact (v : Nat) (h : v * 8 < 2 ^ 64) :
    fromBytesPerSecond v = some (v * 8) ∧ toBytesPerSecond (v * 8) = v := by
  constructor
  · unfold fromBytesPerSecond mul64
    rw [if_pos (by simp only [u64Max]; omega)]
  · unfold toBytesPerSecond
    omega

/-- 10 Gbit/s over 2 seconds needs more than 64 bits: the slow path. -/
example : bytesPer 10000000000 2000000000 = 2500000000 ∧ mul64 10000000000 2000000000 = none := by decide +kernel

/-- One packet at 1 Mbit/s. -/
example : transferTime 1000000 1200 = 9600000 ∧ bytesPer 1000000 9600000 = 1200 := by decide +kernel

/-- A large file at 8 bits per second: the slow path of the transfer time. -/
example : transferTime 8 3000000000 = 3000000000000000000 ∧ mul64 3000000000 nanoBits = none := by decide +kernel

/-- A duration of 2^64 nanoseconds is taken for zero. -/
example : fromBytes 1000 (2 ^ 64) = some 8000000000000 ∧ rate 1000 (2 ^ 64) = 1 := by decide +kernel

end Verif.Props.C135
