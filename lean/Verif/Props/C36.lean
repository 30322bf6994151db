import Verif.Packet.Protect

/-!
# C36: Header protection is undone exactly by the receiver
-/

namespace Verif.C36
open Verif Verif.Packet

/-- A header: first byte, bytes in between, packet number (whose length the first byte
announces); followed by a sealed payload that is long enough for the sample. The
receiver, standing in front of the packet number, gets back all bytes, the packet
number, its length and the key phase bit. -/
theorem undone (k : Keys) (first : UInt8) (mid pn payload : Bytes)
    (hn : pn.length = first.toNat % 4 + 1) (hp : 20 ≤ pn.length + payload.length) :
    ∃ hdr, encryptHdr k (first :: (mid ++ pn)) pn.length payload = .ok hdr ∧
      decryptHdr k { buf := hdr ++ payload, off := 1 + mid.length } =
        (.ok (beVal pn, pn.length, first.toNat.testBit 2),
          { buf := first :: (mid ++ pn) ++ payload, off := 1 + mid.length + pn.length }) := by
  refine ⟨_, encryptHdr_eq k first mid pn payload (by omega) hp, ?_⟩
  generalize hm : k.mask ((payload.drop (4 - pn.length)).take 16) = m
  have e : ∀ f : UInt8, f :: (mid ++ xorMask m 0 pn) ++ payload = f :: (mid ++ (xorMask m 0 pn ++ payload)) := by simp
  rw [e, decryptHdr_eq k _ mid _ (by simpa using hp)]
  have hs : (xorMask m 0 pn ++ payload).drop 4 = payload.drop (4 - pn.length) := by
    rw [List.drop_append, List.drop_eq_nil_of_le (by simp; omega)]
    simp
  simp only [hs, hm, xorFirst_twice]
  have hf : (first &&& 3).toNat = first.toNat % 4 := by
    rw [UInt8.toNat_and]; exact Nat.and_two_pow_sub_one_eq_mod _ 2
  rw [hf, ← hn]
  have hb : (first &&& 4 != 0) = first.toNat.testBit 2 := by
    have h := bit_iff first.toNat 2
    rw [← h, show (1 <<< 2 : Nat) = (4 : UInt8).toNat from rfl, ← UInt8.toNat_and]
    rw [Bool.eq_iff_iff]
    simp [← UInt8.toNat_inj]
  rw [hb]
  have e1 : (xorMask m 0 pn ++ payload).take pn.length = xorMask m 0 pn := by
    rw [List.take_append_of_le_length (by simp)]; rw [List.take_of_length_le (by simp)]
  have e2 : (xorMask m 0 pn ++ payload).drop pn.length = payload := by
    rw [List.drop_append, List.drop_eq_nil_of_le (by simp)]; simp
  rw [e1, e2, xorMask_twice]
  simp

/-- The bits the receiver needs beforehand stay readable: only the packet number and the
low four bits (long header) or five bits (short header) of the first byte change. -/
theorem rest_in_the_clear (k : Keys) (first : UInt8) (mid pn payload : Bytes) (hdr : Bytes)
    (he : encryptHdr k (first :: (mid ++ pn)) pn.length payload = .ok hdr) :
    ∃ first' pn', hdr = first' :: (mid ++ pn') ∧ pn'.length = pn.length ∧
      (if first.toNat < 128 then first'.toNat / 32 = first.toNat / 32 else first'.toNat / 16 = first.toNat / 16) := by
  have h4 : pn.length ≤ 4 ∧ 20 ≤ pn.length + payload.length := by
    unfold encryptHdr at he
    split at he
    · cases he
    split at he
    · cases he
    omega
  rw [encryptHdr_eq k first mid pn payload h4.1 h4.2] at he
  refine ⟨_, _, (Except.ok.inj he).symm, by simp, ?_⟩
  unfold xorFirst
  have key : ∀ (n : Nat) (x y : Nat), x / 2 ^ n = 0 → (y ^^^ x) / 2 ^ n = y / 2 ^ n := by
    intro n x y hx
    rw [← Nat.shiftRight_eq_div_pow] at *
    rw [Nat.shiftRight_xor_distrib, hx, Nat.xor_zero, Nat.shiftRight_eq_div_pow]
  have hl := isLong_iff first.toNat (UInt8.toNat_lt _)
  split
  · next h =>
    have : isLong first.toNat = false := by rw [hl]; simp; omega
    rw [if_neg (by simp [this]), UInt8.toNat_xor]
    apply key 5
    rw [UInt8.toNat_and]
    exact Nat.div_eq_of_lt (Nat.lt_of_le_of_lt Nat.and_le_right (by decide))
  · next h =>
    have : isLong first.toNat = true := by rw [hl]; simp; omega
    rw [if_pos (by simp [this]), UInt8.toNat_xor]
    apply key 4
    rw [UInt8.toNat_and]
    exact Nat.div_eq_of_lt (Nat.lt_of_le_of_lt Nat.and_le_right (by decide))

/-! ### Concrete case -/

def key : Keys :=
  { mask := fun s i => s.getD i 0 ^^^ 0xa5, tagLen := 16, encrypt := fun _ _ p => p ++ List.replicate 16 7
    decrypt := fun _ _ c => some (c.take (c.length - 16)) }

example : encryptHdr key [0x41, 9, 9, 0x12, 0x34] 2 ((List.range 20).map (fun i => UInt8.ofNat (i * 3))) =
    .ok [0x42, 9, 9, 0xbe, 0x9d] := by decide +kernel
example : decryptHdr key { buf := [0x42, 9, 9, 0xbe, 0x9d] ++ (List.range 20).map (fun i => UInt8.ofNat (i * 3)), off := 3 } =
    (.ok (0x1234, 2, false),
      { buf := [0x41, 9, 9, 0x12, 0x34] ++ (List.range 20).map (fun i => UInt8.ofNat (i * 3)), off := 5 }) := by
  decide +kernel

end Verif.C36
