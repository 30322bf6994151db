import Verif.Octets.Lemmas

/-! # C02 — parsing variable-length integers is total and self-delimiting -/

namespace Verif.C02
open Verif

/-- Specification: the length announced by the two top bits of the first byte,
`2^(b / 64)` for a byte `b`. -/
def announced (b : UInt8) : Nat := 2 ^ (b.toNat / 64)

theorem announced_eq (b : UInt8) : varintParseLen b = announced b := by
  revert b; apply u8_forall; decide +kernel

/-- **C02.** Reading from any position of any buffer: either there is no byte or
fewer bytes than announced, and the reader reports a short buffer and does not
move; or the reader moves by exactly the announced length and returns the
big-endian value of those bytes without the two length bits, below 2^62. In
particular it never panics. -/
theorem varint_parse_total (c : Cur) (hwf : c.WF) :
    (c.rest = [] ∧ c.getVarint = (.error .tooShort, c)) ∨
    (∃ b bs, c.rest = b :: bs ∧ c.rest.length < announced b ∧
      c.getVarint = (.error .tooShort, c)) ∨
    (∃ b bs v, c.rest = b :: bs ∧ announced b ≤ c.rest.length ∧
      c.getVarint = (.ok v, { c with off := c.off + announced b }) ∧
      v < 2 ^ 62 ∧
      v = beVal (c.rest.take (announced b)) - (b.toNat / 64) * 2 ^ (8 * announced b - 2)) := by
  rw [getVarint_eq c hwf]
  rcases h : c.rest with _ | ⟨b, bs⟩
  · left; simp [decVarint]
  right
  unfold decVarint
  simp only [announced_eq]
  by_cases hs : (b :: bs).length < announced b
  · left
    exact ⟨b, bs, rfl, hs, by simp only [if_pos hs]⟩
  · right
    refine ⟨b, bs, beVal ((b :: bs).take (announced b)) % 2 ^ (8 * announced b - 2), rfl,
      by omega, by simp only [if_neg hs], ?_, ?_⟩
    · have hl := varintParseLen_isLen b
      rw [announced_eq] at hl
      have hp : (2:Nat) ^ (8 * announced b - 2) ≤ 2 ^ 62 :=
        Nat.pow_le_pow_right (by decide) (by rcases hl with h | h | h | h <;> omega)
      exact Nat.lt_of_lt_of_le (Nat.mod_lt _ (Nat.pow_pos (by decide))) hp
    · -- the two top bits of the first byte are the length bits
      obtain ⟨k, hk⟩ : ∃ k, announced b = k + 1 := by
        have hl := varintParseLen_isLen b
        rw [announced_eq] at hl
        rcases hl with h | h | h | h <;> exact ⟨announced b - 1, by omega⟩
      simp only [hk, List.take_succ_cons]
      have hlen : (bs.take k).length = k := by
        simp only [List.length_take]; simp only [List.length_cons] at hs; omega
      rw [beVal_cons, hlen]
      have hlt := beVal_lt (bs.take k)
      rw [hlen] at hlt
      have e1 : 8 * (k + 1) - 2 = 6 + 8 * k := by omega
      have e2 : (2:Nat) ^ (6 + 8 * k) = 64 * 256 ^ k := by
        rw [Nat.pow_add, Nat.pow_mul]
      rw [e1, e2]
      have hb := u8_lt b
      have hd : b.toNat * 256 ^ k + beVal (bs.take k)
          = (b.toNat / 64) * (64 * 256 ^ k) + ((b.toNat % 64) * 256 ^ k + beVal (bs.take k)) := by
        have : b.toNat = b.toNat / 64 * 64 + b.toNat % 64 := by omega
        conv => lhs; rw [this, Nat.add_mul, Nat.mul_assoc]
        omega
      have hlow : (b.toNat % 64) * 256 ^ k + beVal (bs.take k) < 64 * 256 ^ k := by
        have : (b.toNat % 64) * 256 ^ k ≤ 63 * 256 ^ k := Nat.mul_le_mul_right _ (by omega)
        omega
      rw [hd, Nat.mul_comm (b.toNat / 64), Nat.mul_add_mod, Nat.mod_eq_of_lt hlow]
      omega

/-- A concrete instance of the success case: a two-byte encoding of 37 (a
non-minimal one) followed by other data, and of the failure case. -/
example : Cur.getVarint { buf := [9, 0x40, 0x25, 7], off := 1 }
    = (.ok 37, { buf := [9, 0x40, 0x25, 7], off := 3 }) := by decide +kernel
example : Cur.getVarint { buf := [9, 0x80, 0x25, 7], off := 1 }
    = (.error .tooShort, { buf := [9, 0x80, 0x25, 7], off := 1 }) := by decide +kernel

end Verif.C02
