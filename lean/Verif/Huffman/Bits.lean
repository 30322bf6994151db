import Verif.Huffman.Model
import Verif.Octets.Lemmas

/-! Bit strings, and what the kernel checks about the tables as a whole. -/

namespace Verif.Huffman
open Verif

/-- The `n` low bits of `v`, most significant first. -/
def bits : Nat → Nat → List Bool
  | 0, _ => []
  | n + 1, v => v.testBit n :: bits n v

@[simp] theorem bits_length (n v : Nat) : (bits n v).length = n := by
  induction n with
  | zero => rfl
  | succ n ih => simp [bits, ih]

theorem bits_append (a b v : Nat) : bits (a + b) v = bits a (v / 2 ^ b) ++ bits b v := by
  induction a with
  | zero => simp [bits]
  | succ a ih =>
    rw [Nat.add_right_comm, bits, bits, ih, List.cons_append]
    congr 1
    rw [← Nat.shiftRight_eq_div_pow, Nat.testBit_shiftRight, Nat.add_comm]

theorem bits_mod (n k v : Nat) (h : n ≤ k) : bits n (v % 2 ^ k) = bits n v := by
  induction n with
  | zero => rfl
  | succ n ih =>
    rw [bits, bits, ih (by omega), Nat.testBit_mod_two_pow]
    simp [show n < k by omega]

/-- Concatenation of bit strings. -/
theorem bits_concat (a b x y : Nat) (h : y < 2 ^ b) : bits (a + b) (x * 2 ^ b + y) = bits a x ++ bits b y := by
  rw [bits_append]
  have h1 : (x * 2 ^ b + y) / 2 ^ b = x := by
    rw [Nat.add_comm, Nat.add_mul_div_right _ _ (Nat.two_pow_pos b), Nat.div_eq_of_lt h, Nat.zero_add]
  have h2 : (x * 2 ^ b + y) % 2 ^ b = y := by
    rw [Nat.add_comm, Nat.add_mul_mod_self_right, Nat.mod_eq_of_lt h]
  rw [h1, ← bits_mod b b (x * 2 ^ b + y) (Nat.le_refl _), h2]

theorem bits_inj {n x y : Nat} (hx : x < 2 ^ n) (hy : y < 2 ^ n) (h : bits n x = bits n y) : x = y := by
  induction n generalizing x y with
  | zero => simp at hx hy; omega
  | succ n ih =>
    simp only [bits, List.cons.injEq] at h
    have h2 := ih (Nat.mod_lt x (Nat.two_pow_pos n)) (Nat.mod_lt y (Nat.two_pow_pos n))
      (by rw [bits_mod _ _ _ (Nat.le_refl _), bits_mod _ _ _ (Nat.le_refl _)]; exact h.2)
    have hb : ∀ z, z < 2 ^ (n + 1) → z / 2 ^ n = (z.testBit n).toNat := by
      intro z hz
      rw [Nat.testBit_eq_decide_div_mod_eq]
      have : z / 2 ^ n < 2 := by rw [Nat.div_lt_iff_lt_mul (Nat.two_pow_pos n)]; rw [Nat.pow_succ] at hz; omega
      generalize z / 2 ^ n = q at this ⊢
      rcases (show q = 0 ∨ q = 1 by omega) with e | e <;> rw [e] <;> rfl
    have e1 := hb x hx
    have e2 := hb y hy
    rw [h.1, ← e2] at e1
    have := Nat.div_add_mod x (2 ^ n)
    have := Nat.div_add_mod y (2 ^ n)
    rw [e1, h2] at *
    omega

theorem bits_ones (n : Nat) : bits n (2 ^ n - 1) = List.replicate n true := by
  induction n with
  | zero => rfl
  | succ n ih =>
    rw [bits, List.replicate_succ]
    congr 1
    · rw [Nat.testBit_two_pow_sub_one]; simp
    · rw [← ih, ← bits_mod n n _ (Nat.le_refl _)]
      congr 1
      have : 2 ^ (n + 1) - 1 = 1 * 2 ^ n + (2 ^ n - 1) := by
        have := Nat.two_pow_pos n; rw [Nat.pow_succ]; omega
      rw [this, Nat.add_comm, Nat.add_mul_mod_self_right, Nat.mod_eq_of_lt]
      have := Nat.two_pow_pos n; omega

/-- The code of a symbol as a bit string. -/
def code (i : Nat) : List Bool := bits (entry i).1 (entry i).2

/-- The bits read since the last complete symbol in each state of the decoder, as length
and value. Found by following the table; only used in proofs. -/
def pathTable : List (Nat × Nat) := [
  (0, 0x0), (1, 0x0), (2, 0x0), (3, 0x0), (4, 0x0), (4, 0x1), (3, 0x1), (4, 0x2), (4, 0x3),
  (2, 0x1), (3, 0x2), (4, 0x4), (4, 0x5), (5, 0xa), (5, 0xb), (3, 0x3), (4, 0x6), (5, 0xc),
  (5, 0xd), (4, 0x7), (5, 0xe), (5, 0xf), (1, 0x1), (2, 0x2), (3, 0x4), (4, 0x8), (5, 0x10),
  (5, 0x11), (4, 0x9), (5, 0x12), (5, 0x13), (3, 0x5), (4, 0xa), (5, 0x14), (5, 0x15), (4, 0xb),
  (5, 0x16), (5, 0x17), (6, 0x2e), (6, 0x2f), (2, 0x3), (3, 0x6), (4, 0xc), (5, 0x18), (6, 0x30),
  (6, 0x31), (5, 0x19), (6, 0x32), (6, 0x33), (4, 0xd), (5, 0x1a), (6, 0x34), (6, 0x35), (5, 0x1b),
  (6, 0x36), (6, 0x37), (3, 0x7), (4, 0xe), (5, 0x1c), (6, 0x38), (6, 0x39), (5, 0x1d), (6, 0x3a),
  (6, 0x3b), (4, 0xf), (5, 0x1e), (6, 0x3c), (6, 0x3d), (5, 0x1f), (6, 0x3e), (7, 0x7c), (7, 0x7d),
  (6, 0x3f), (7, 0x7e), (7, 0x7f), (8, 0xfe), (9, 0x1fc), (9, 0x1fd), (8, 0xff), (9, 0x1fe),
  (10, 0x3fd), (9, 0x1ff), (10, 0x3fe), (11, 0x7fd), (10, 0x3ff), (11, 0x7fe), (12, 0xffc),
  (12, 0xffd), (11, 0x7ff), (12, 0xffe), (12, 0xfff), (13, 0x1ffe), (13, 0x1fff), (14, 0x3ffe),
  (14, 0x3fff), (15, 0x7fff), (16, 0xfffe), (17, 0x1fffc), (18, 0x3fff8), (18, 0x3fff9),
  (19, 0x7fff3), (17, 0x1fffd), (18, 0x3fffa), (19, 0x7fff4), (19, 0x7fff5), (18, 0x3fffb),
  (19, 0x7fff6), (19, 0x7fff7), (20, 0xfffee), (20, 0xfffef), (16, 0xffff), (17, 0x1fffe),
  (18, 0x3fffc), (19, 0x7fff8), (20, 0xffff0), (20, 0xffff1), (19, 0x7fff9), (20, 0xffff2),
  (20, 0xffff3), (18, 0x3fffd), (19, 0x7fffa), (20, 0xffff4), (21, 0x1fffe9), (20, 0xffff5),
  (21, 0x1fffea), (21, 0x1fffeb), (19, 0x7fffb), (20, 0xffff6), (21, 0x1fffec), (21, 0x1fffed),
  (20, 0xffff7), (21, 0x1fffee), (21, 0x1fffef), (17, 0x1ffff), (18, 0x3fffe), (19, 0x7fffc),
  (20, 0xffff8), (21, 0x1ffff0), (21, 0x1ffff1), (20, 0xffff9), (21, 0x1ffff2), (21, 0x1ffff3),
  (19, 0x7fffd), (20, 0xffffa), (21, 0x1ffff4), (21, 0x1ffff5), (20, 0xffffb), (21, 0x1ffff6),
  (22, 0x3fffec), (22, 0x3fffed), (21, 0x1ffff7), (22, 0x3fffee), (22, 0x3fffef), (18, 0x3ffff),
  (19, 0x7fffe), (20, 0xffffc), (21, 0x1ffff8), (22, 0x3ffff0), (22, 0x3ffff1), (21, 0x1ffff9),
  (22, 0x3ffff2), (22, 0x3ffff3), (20, 0xffffd), (21, 0x1ffffa), (22, 0x3ffff4), (22, 0x3ffff5),
  (21, 0x1ffffb), (22, 0x3ffff6), (22, 0x3ffff7), (19, 0x7ffff), (20, 0xffffe), (21, 0x1ffffc),
  (22, 0x3ffff8), (22, 0x3ffff9), (21, 0x1ffffd), (22, 0x3ffffa), (23, 0x7ffff5), (22, 0x3ffffb),
  (23, 0x7ffff6), (23, 0x7ffff7), (20, 0xfffff), (21, 0x1ffffe), (22, 0x3ffffc), (23, 0x7ffff8),
  (23, 0x7ffff9), (22, 0x3ffffd), (23, 0x7ffffa), (23, 0x7ffffb), (24, 0xfffff6), (24, 0xfffff7),
  (21, 0x1fffff), (22, 0x3ffffe), (23, 0x7ffffc), (24, 0xfffff8), (25, 0x1fffff0), (25, 0x1fffff1),
  (24, 0xfffff9), (25, 0x1fffff2), (25, 0x1fffff3), (23, 0x7ffffd), (24, 0xfffffa),
  (25, 0x1fffff4), (25, 0x1fffff5), (24, 0xfffffb), (25, 0x1fffff6), (25, 0x1fffff7),
  (26, 0x3ffffef), (22, 0x3fffff), (23, 0x7ffffe), (24, 0xfffffc), (25, 0x1fffff8),
  (26, 0x3fffff0), (26, 0x3fffff1), (25, 0x1fffff9), (26, 0x3fffff2), (26, 0x3fffff3),
  (24, 0xfffffd), (25, 0x1fffffa), (26, 0x3fffff4), (26, 0x3fffff5), (25, 0x1fffffb),
  (26, 0x3fffff6), (26, 0x3fffff7), (23, 0x7fffff), (24, 0xfffffe), (25, 0x1fffffc),
  (26, 0x3fffff8), (27, 0x7fffff1), (26, 0x3fffff9), (27, 0x7fffff2), (27, 0x7fffff3),
  (25, 0x1fffffd), (26, 0x3fffffa), (27, 0x7fffff4), (27, 0x7fffff5), (26, 0x3fffffb),
  (27, 0x7fffff6), (27, 0x7fffff7), (24, 0xffffff), (25, 0x1fffffe), (26, 0x3fffffc),
  (27, 0x7fffff8), (27, 0x7fffff9), (26, 0x3fffffd), (27, 0x7fffffa), (27, 0x7fffffb),
  (25, 0x1ffffff), (26, 0x3fffffe), (27, 0x7fffffc), (27, 0x7fffffd), (26, 0x3ffffff),
  (27, 0x7fffffe), (27, 0x7ffffff), (28, 0xfffffff), (29, 0x1ffffffe), (29, 0x1fffffff)]

/-- The bits read since the last complete symbol in a state. -/
def path (st : Nat) : List Bool := bits (pathTable.getD st (0, 0)).1 (pathTable.getD st (0, 0)).2

/-- One code is an initial part of the other. -/
def clash (a b : Nat × Nat) : Bool :=
  if a.1 ≤ b.1 then b.2 >>> (b.1 - a.1) == a.2 else a.2 >>> (a.1 - b.1) == b.2

/-- No code of the rest of the list clashes with an earlier one. -/
def prefixFree : List (Nat × Nat) → Bool
  | [] => true
  | a :: t => t.all (fun b => !clash a b) && prefixFree t

theorem table_prefixFree : prefixFree encodeTable = true := by decide +kernel

theorem table_sizes : encodeTable.all (fun e => decide (5 ≤ e.1 ∧ e.1 ≤ 30 ∧ e.2 < 2 ^ e.1)) = true ∧
    encodeTable.length = 257 ∧ entry 256 = (30, 2 ^ 30 - 1) ∧ pathTable.length = 256 ∧
    pathTable.all (fun e => decide (e.2 < 2 ^ e.1)) = true := by decide +kernel

/-- The bits of each state are a proper initial part of some code. -/
theorem table_incomplete : pathTable.all (fun p =>
    encodeTable.any (fun e => decide (p.1 < e.1) && e.2 >>> (e.1 - p.1) == p.2)) = true := by decide +kernel

/-- The entry of the decoder table for a state with path `p` and input `n` is right. -/
def entryOk (p : Nat × Nat) (n : Nat) (e : Nat × Nat × Nat) : Bool :=
  let w := (p.1 + 4, p.2 * 16 + n)
  let q := pathTable.getD e.1 (0, 0)
  decide (e.1 < 256) && decide (e.2.1 < 256) &&
  if e.2.2 &&& 4 = 4 then decide (30 ≤ w.1) && w.2 >>> (w.1 - 30) == 2 ^ 30 - 1
  else
    (decide (e.1 = 0) || ((e.2.2 &&& 1 == 1) == (decide (q.1 ≤ 7) && q.2 == 2 ^ q.1 - 1))) &&
    if e.2.2 &&& 2 = 2 then
      let s := entry e.2.1
      w.1 == s.1 + q.1 && w.2 == s.2 * 2 ^ q.1 + q.2
    else w.1 == q.1 && w.2 == q.2

def rowOk (p : Nat × Nat) : Nat → List (Nat × Nat × Nat) → Bool
  | _, [] => true
  | n, e :: t => entryOk p n e && rowOk p (n + 1) t

def rowsOk : List (Nat × Nat) → List (List (Nat × Nat × Nat)) → Bool
  | [], [] => true
  | p :: ps, r :: rs => r.length == 16 && rowOk p 0 r && rowsOk ps rs
  | _, _ => false

theorem table_right : rowsOk pathTable decodeTable = true := by decide +kernel

end Verif.Huffman
