import Verif.Packet.HdrEncode

/-! Header protection: lemmas. -/

namespace Verif.Packet
open Verif Verif.Io

@[simp] theorem xorMask_length (m : Nat → UInt8) (i : Nat) (l : Bytes) : (xorMask m i l).length = l.length := by
  induction l generalizing i with
  | nil => rfl
  | cons b t ih => simp [xorMask, ih]

theorem xorMask_twice (m : Nat → UInt8) (i : Nat) (l : Bytes) : xorMask m i (xorMask m i l) = l := by
  induction l generalizing i with
  | nil => rfl
  | cons b t ih => simp [xorMask, ih, UInt8.xor_assoc]

theorem xorFirst_isLong (f m : UInt8) : isLong (xorFirst f m).toNat = isLong f.toNat := by
  have key : ∀ x : Nat, x &&& 0x80 = 0 → ∀ y : Nat, (y ^^^ x) &&& 0x80 = y &&& 0x80 := by
    intro x hx y
    rw [Nat.and_xor_distrib_right, hx, Nat.xor_zero]
  unfold isLong
  congr 1
  unfold xorFirst
  rw [UInt8.toNat_xor]
  apply key
  split
  · rw [UInt8.toNat_and, Nat.and_assoc]; simp
  · rw [UInt8.toNat_and, Nat.and_assoc]; simp

theorem xorFirst_twice (f m : UInt8) : xorFirst (xorFirst f m) m = f := by
  have h := xorFirst_isLong f m
  rw [xorFirst, h]
  unfold xorFirst
  rw [UInt8.xor_assoc, UInt8.xor_self, UInt8.xor_zero]

/-- What `encrypt_hdr` does to a header `first :: (mid ++ pn)`. -/
theorem encryptHdr_eq (k : Keys) (first : UInt8) (mid pn payload : Bytes) (h4 : pn.length ≤ 4)
    (hp : 20 ≤ pn.length + payload.length) :
    encryptHdr k (first :: (mid ++ pn)) pn.length payload =
      .ok (xorFirst first (k.mask ((payload.drop (4 - pn.length)).take 16) 0) ::
        (mid ++ xorMask (k.mask ((payload.drop (4 - pn.length)).take 16)) 0 pn)) := by
  unfold encryptHdr
  rw [if_neg (by omega), if_neg (by omega)]
  simp only
  rw [if_neg (by simp)]
  simp

theorem decryptHdr_eq (k : Keys) (first : UInt8) (mid rest : Bytes) (hr : 20 ≤ rest.length) :
    decryptHdr k { buf := first :: (mid ++ rest), off := 1 + mid.length } =
      (let m := k.mask ((rest.drop 4).take 16)
       let f := xorFirst first (m 0)
       let n := (f &&& 3).toNat + 1
       (.ok (beVal (xorMask m 0 (rest.take n)), n, f &&& 4 != 0),
        { buf := f :: (mid ++ (xorMask m 0 (rest.take n) ++ rest.drop n)), off := 1 + mid.length + n })) := by
  have e1 : ({ buf := first :: (mid ++ rest), off := 1 + mid.length } : Cur).rest = rest := by
    simp [Cur.rest, Nat.add_comm 1]
  have e2 : ({ buf := first :: (mid ++ rest), off := 1 + mid.length } : Cur).cap = rest.length := by
    simp [Cur.cap]; omega
  unfold decryptHdr
  simp only [e1, e2]
  rw [if_neg (by omega)]
  generalize hm : k.mask ((rest.drop 4).take 16) = m
  generalize hf : xorFirst first (m 0) = f
  have hn : (f &&& 3).toNat + 1 ≤ rest.length := by
    have : (f &&& 3).toNat < 4 := by
      rw [UInt8.toNat_and]; exact Nat.lt_succ_of_le Nat.and_le_right
    omega
  generalize (f &&& 3).toNat + 1 = n at hn
  have e3 : Cur.overwrite (Cur.overwrite (first :: (mid ++ rest)) (1 + mid.length) (xorMask m 0 (rest.take n))) 0 [f] =
      f :: (mid ++ (xorMask m 0 (rest.take n) ++ rest.drop n)) := by
    unfold Cur.overwrite
    have : 1 + mid.length + (xorMask m 0 (rest.take n)).length = (mid.length + n) + 1 := by
      simp; omega
    rw [this, Nat.add_comm 1]
    simp [Nat.min_eq_left hn, List.drop_append]
  rw [e3]

end Verif.Packet
