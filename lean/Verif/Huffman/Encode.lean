import Verif.Huffman.Decode
import Verif.Codec.Wr

/-! What the encoder writes. -/

namespace Verif.Huffman
open Verif

theorem bytesBits_append (a b : Bytes) : bytesBits (a ++ b) = bytesBits a ++ bytesBits b := by
  simp [bytesBits]

theorem bytesBits_length (a : Bytes) : (bytesBits a).length = 8 * a.length := by
  induction a with
  | nil => rfl
  | cons b t ih => rw [bytesBits_cons, List.length_append, ih, bits_length, List.length_cons]; omega

theorem bytesBits_be (n v : Nat) : bytesBits (beBytes n v) = bits (8 * n) v := by
  induction n with
  | zero => rfl
  | succ n ih =>
    rw [beBytes, bytesBits_cons, ih, show 8 * (n + 1) = 8 + 8 * n by omega, bits_append]
    congr 1
    simp only [UInt8.toNat_ofNat', Nat.pow_mul]
    exact bits_mod 8 8 _ (Nat.le_refl _)

/-- `bits` holds the pending bits `w` at its high end. -/
def Held (x p : Nat) (w : List Bool) : Prop := ∃ W, W < 2 ^ p ∧ p < 64 ∧ x = W * 2 ^ (64 - p) ∧ w = bits p W

theorem or_low {a b k : Nat} (h : b < 2 ^ k) : a * 2 ^ k ||| b = a * 2 ^ k + b := by
  rw [Nat.mul_comm, ← Nat.two_pow_add_eq_or_of_lt h]

theorem held_push {x p n v : Nat} {w : List Bool} (h : Held x p w) (hv : v < 2 ^ n) (hp : p + n < 64) :
    Held (x ||| shl64 v (64 - (p + n))) (p + n) (w ++ bits n v) := by
  obtain ⟨W, h1, h2, rfl, rfl⟩ := h
  have hlt : v * 2 ^ (64 - (p + n)) < 2 ^ (64 - p) := by
    have : 2 ^ (64 - p) = 2 ^ n * 2 ^ (64 - (p + n)) := by rw [← Nat.pow_add]; congr 1; omega
    rw [this]; exact Nat.mul_lt_mul_of_pos_right hv (Nat.two_pow_pos _)
  have hle : 2 ^ (64 - p) ≤ 2 ^ 64 := Nat.pow_le_pow_right (by omega) (by omega)
  have e : shl64 v (64 - (p + n)) = v * 2 ^ (64 - (p + n)) := by
    unfold shl64; rw [Nat.shiftLeft_eq, Nat.mod_eq_of_lt (by omega)]
  refine ⟨W * 2 ^ n + v, ?_, hp, ?_, (bits_concat _ _ _ _ hv).symm⟩
  · rw [Nat.pow_add]
    have : W * 2 ^ n + 2 ^ n ≤ 2 ^ p * 2 ^ n := by
      rw [← Nat.succ_mul]; exact Nat.mul_le_mul_right _ h1
    omega
  · rw [e, or_low hlt, Nat.add_mul, Nat.mul_assoc, ← Nat.pow_add]
    congr 3; omega

theorem held_full {x p n v : Nat} {w : List Bool} (h : Held x p w) (hv : v < 2 ^ n) (hp : 64 ≤ p + n) (hn : n ≤ 64) :
    bits 64 (x ||| (v >>> (p + n - 64))) ++ bits (p + n - 64) v = w ++ bits n v := by
  obtain ⟨W, h1, h2, rfl, rfl⟩ := h
  have e : n = (64 - p) + (p + n - 64) := by omega
  have hlt : v >>> (p + n - 64) < 2 ^ (64 - p) := by
    rw [Nat.shiftRight_eq_div_pow, Nat.div_lt_iff_lt_mul (Nat.two_pow_pos _), ← Nat.pow_add, ← e]; exact hv
  rw [or_low hlt]
  have e64 : bits 64 (W * 2 ^ (64 - p) + v >>> (p + n - 64)) = bits p W ++ bits (64 - p) (v >>> (p + n - 64)) := by
    rw [← bits_concat _ _ _ _ hlt]; congr 1; omega
  rw [e64, List.append_assoc]
  congr 1
  rw [Nat.shiftRight_eq_div_pow, ← bits_append, ← e]

theorem held_rest {n v q : Nat} (hq : q < 64) :
    Held (if q = 0 then 0 else shl64 v (64 - q)) q (bits q v) := by
  refine ⟨v % 2 ^ q, Nat.mod_lt _ (Nat.two_pow_pos _), hq, ?_, (bits_mod _ _ _ (Nat.le_refl _)).symm⟩
  split
  · next h => subst h; simp [Nat.mod_one]
  · unfold shl64
    rw [Nat.shiftLeft_eq]
    have : 2 ^ 64 = 2 ^ q * 2 ^ (64 - q) := by rw [← Nat.pow_add]; congr 1; omega
    rw [this, Nat.mul_mod_mul_right]

/-- The loop writes whole words and keeps the bits left over. -/
theorem encLoop_spec (lc : Bool) : ∀ (v : Bytes) (x p : Nat) (w : List Bool) (c : Cur), c.WF → Held x p w →
    (∃ c', encLoop lc v x p c = (.error .tooShort, c') ∧
      c.buf.length < c.off + (w.length + (codes (v.map (fold lc))).length + 7) / 8) ∨
    ∃ x' p' w' bs c', encLoop lc v x p c = (.ok (x', p'), c') ∧ Held x' p' w' ∧ Wr c bs c' ∧
      w ++ codes (v.map (fold lc)) = bytesBits bs ++ w' := by
  intro v
  induction v with
  | nil =>
    intro x p w c hw hh
    right
    exact ⟨x, p, w, [], c, rfl, hh, .nil hw, by simp [codes, bytesBits]⟩
  | cons b t ih =>
    intro x p w c hw hh
    have hs := entry_size (i := (fold lc b).toNat) (by have := u8_lt (fold lc b); omega)
    have hcd : code (fold lc b).toNat = bits (entry (fold lc b).toNat).1 (entry (fold lc b).toNat).2 := rfl
    have hp : p < 64 := by obtain ⟨W, h1, h2, h3, h4⟩ := hh; exact h2
    have hwl : w.length = p := by obtain ⟨W, h1, h2, h3, h4⟩ := hh; rw [h4]; simp
    simp only [List.map_cons, codes_cons, hcd]
    simp only [encLoop]
    generalize (entry (fold lc b).toNat) = e at *
    obtain ⟨n, d⟩ := e
    simp only at hs ⊢
    by_cases hlt : p + n < 64
    · rw [if_pos hlt]
      have hh' := held_push hh hs.2.2 hlt
      rcases ih _ _ _ c hw hh' with ⟨c', h1, h2⟩ | ⟨x', p', w', bs, c', h1, h2, h3, h4⟩
      · left
        refine ⟨c', h1, ?_⟩
        simp only [List.length_append, bits_length] at h2 ⊢
        rw [← Nat.add_assoc]; exact h2
      · right
        exact ⟨x', p', w', bs, c', h1, h2, h3, by rw [← h4, List.append_assoc]⟩
    · rw [if_neg hlt]
      have hfull := held_full hh hs.2.2 (by omega) (by omega)
      rcases putU_cases c 8 (x ||| (d >>> (p + n - 64))) with ⟨e1, e2⟩ | ⟨c1, e1, e2⟩
      · rw [e1]
        left
        refine ⟨c, rfl, ?_⟩
        simp only [List.length_append, bits_length]
        omega
      · rw [e1]
        simp only
        have hw1 : c1.WF := by
          unfold Cur.WF; rw [e2.buf, e2.off, overwrite_len e2.room]; exact e2.room
        have hl1 : c1.buf.length = c.buf.length := by rw [e2.buf, overwrite_len e2.room]
        have ho1 : c1.off = c.off + 8 := by rw [e2.off]; simp
        have hr := held_rest (n := n) (v := d) (q := p + n - 64) (by omega)
        rcases ih _ _ _ c1 hw1 hr with ⟨c', h1, h2⟩ | ⟨x', p', w', bs, c', h1, h2, h3, h4⟩
        · left
          refine ⟨c', h1, ?_⟩
          rw [hl1, ho1] at h2
          simp only [List.length_append, bits_length] at h2 ⊢
          omega
        · right
          refine ⟨x', p', w', beBytes 8 (x ||| (d >>> (p + n - 64))) ++ bs, c', h1, h2, e2.trans h3, ?_⟩
          rw [bytesBits_append, List.append_assoc, ← h4, bytesBits_be, ← List.append_assoc, ← List.append_assoc, hfull]

theorem putTail_spec : ∀ (k x : Nat) (c : Cur), c.WF →
    (∃ c', putTail k x c = (.error .tooShort, c') ∧ c.buf.length < c.off + k) ∨
    ∃ bs c', putTail k x c = (.ok (), c') ∧ Wr c bs c' ∧ bytesBits bs = bits (8 * k) x := by
  intro k
  induction k with
  | zero => intro x c hw; right; exact ⟨[], c, rfl, .nil hw, rfl⟩
  | succ k ih =>
    intro x c hw
    simp only [putTail]
    rcases putU_cases c 1 (x >>> (8 * k)) with ⟨e1, e2⟩ | ⟨c1, e1, e2⟩
    · rw [e1]; left; exact ⟨c, rfl, by omega⟩
    · rw [e1]
      simp only
      have hw1 : c1.WF := by
        unfold Cur.WF; rw [e2.buf, e2.off, overwrite_len e2.room]; exact e2.room
      have hl1 : c1.buf.length = c.buf.length := by rw [e2.buf, overwrite_len e2.room]
      have ho1 : c1.off = c.off + 1 := by rw [e2.off]; simp
      rcases ih x c1 hw1 with ⟨c', h1, h2⟩ | ⟨bs, c', h1, h2, h3⟩
      · left; exact ⟨c', h1, by rw [hl1, ho1] at h2; omega⟩
      · right
        refine ⟨_, c', h1, e2.trans h2, ?_⟩
        rw [bytesBits_append, h3, bytesBits_be, show 8 * (k + 1) = 8 * 1 + 8 * k by omega, bits_append,
          Nat.shiftRight_eq_div_pow]

/-- The last word: the pending bits and ones. -/
theorem flush_bits {x p : Nat} {w : List Bool} (h : Held x p w) (k : Nat) (hk : p ≤ 8 * k) (hk2 : 8 * k ≤ 64) :
    bits (8 * k) ((x ||| ((2 ^ 64 - 1) >>> p)) >>> (64 - 8 * k)) = w ++ List.replicate (8 * k - p) true := by
  obtain ⟨W, h1, h2, rfl, rfl⟩ := h
  have hm : (2 ^ 64 - 1) >>> p = 2 ^ (64 - p) - 1 := by
    have e : 2 ^ 64 = 2 ^ (64 - p) * 2 ^ p := by rw [← Nat.pow_add]; congr 1; omega
    rw [Nat.shiftRight_eq_div_pow, e]
    have hpos := Nat.two_pow_pos p
    have hpos2 := Nat.two_pow_pos (64 - p)
    rw [Nat.div_eq_iff hpos]
    have : (2 ^ (64 - p) - 1) * 2 ^ p + 2 ^ p = 2 ^ (64 - p) * 2 ^ p := by
      rw [← Nat.succ_mul]; congr 1; omega
    omega
  have hpos2 := Nat.two_pow_pos (64 - p)
  rw [hm, or_low (by omega)]
  have hb : bits 64 (W * 2 ^ (64 - p) + (2 ^ (64 - p) - 1)) = bits p W ++ List.replicate (64 - p) true := by
    rw [← bits_ones, ← bits_concat _ _ _ _ (by omega)]; congr 1; omega
  rw [Nat.shiftRight_eq_div_pow]
  have hs := bits_append (8 * k) (64 - 8 * k) (W * 2 ^ (64 - p) + (2 ^ (64 - p) - 1))
  rw [show 8 * k + (64 - 8 * k) = 64 by omega, hb] at hs
  have hr : List.replicate (64 - p) true = List.replicate (8 * k - p) true ++ List.replicate (64 - 8 * k) true := by
    rw [List.replicate_append_replicate]; congr 1; omega
  rw [hr, ← List.append_assoc] at hs
  exact ((List.append_inj hs (by simp; omega)).1).symm

/-- The encoder writes the codes of the string and fills up the last byte with ones, or
fails for lack of room. -/
theorem putHuffman_spec (lc : Bool) (c : Cur) (hw : c.WF) (v : Bytes) :
    (∃ c', putHuffman lc c v = (.error .tooShort, c') ∧
      c.buf.length < c.off + ((codes (v.map (fold lc))).length + 7) / 8) ∨
    ∃ bs c', putHuffman lc c v = (.ok (), c') ∧ Wr c bs c' ∧
      bytesBits bs = codes (v.map (fold lc)) ++ List.replicate (8 * bs.length - (codes (v.map (fold lc))).length) true ∧
      bs.length = ((codes (v.map (fold lc))).length + 7) / 8 := by
  have h0 : Held 0 0 [] := ⟨0, by simp, by omega, by simp, rfl⟩
  unfold putHuffman
  have hfin : ∀ (bs : Bytes) (w : List Bool) (p k : Nat), w.length = p → 8 * k - p < 8 → p ≤ 8 * k → ∀ bs' : Bytes,
      codes (v.map (fold lc)) = bytesBits bs ++ w → bytesBits bs' = w ++ List.replicate (8 * k - p) true →
      bytesBits (bs ++ bs') = codes (v.map (fold lc)) ++
        List.replicate (8 * (bs ++ bs').length - (codes (v.map (fold lc))).length) true ∧
      (bs ++ bs').length = ((codes (v.map (fold lc))).length + 7) / 8 := by
    intro bs w p k hwl hk hpk bs' h1 h2
    have hl1 := congrArg List.length h1
    have hl2 := congrArg List.length h2
    simp only [List.length_append, bytesBits_length, List.length_replicate] at hl1 hl2
    refine ⟨?_, by simp only [List.length_append]; omega⟩
    rw [bytesBits_append, h2, ← List.append_assoc, ← h1]
    congr 2
    simp only [List.length_append]; omega
  rcases encLoop_spec lc v 0 0 [] c hw h0 with ⟨c', h1, h2⟩ | ⟨x, p, w, bs, c1, h1, h2, h3, h4⟩
  · left
    rw [h1]
    exact ⟨c', rfl, by simpa using h2⟩
  · rw [h1]
    simp only
    simp only [List.nil_append] at h4
    have hwl : w.length = p := by obtain ⟨W, _, _, _, h5⟩ := h2; rw [h5]; simp
    have hp64 : p < 64 := by obtain ⟨W, _, h5, _, _⟩ := h2; exact h5
    have hw1 : c1.WF := by
      unfold Cur.WF; rw [h3.buf, h3.off, overwrite_len h3.room]; exact h3.room
    have hl1 : c1.buf.length = c.buf.length := by rw [h3.buf, overwrite_len h3.room]
    have hcl := congrArg List.length h4
    simp only [List.length_append, bytesBits_length] at hcl
    by_cases hp : p = 0
    · rw [if_pos hp]
      right
      have hwn : w = [] := List.eq_nil_of_length_eq_zero (by omega)
      have := hfin bs w p 0 hwl (by omega) (by omega) [] h4 (by rw [hwn, hp]; rfl)
      rw [List.append_nil] at this
      exact ⟨bs, c1, rfl, h3, this⟩
    · rw [if_neg hp]
      have hb := flush_bits h2 ((p + 7) / 8) (by omega) (by omega)
      generalize hk : (p + 7) / 8 = k at *
      generalize hy : (x ||| ((2 ^ 64 - 1) >>> p)) >>> (64 - 8 * k) = y at *
      by_cases h32 : 8 * k ≥ 32
      · rw [if_pos h32]
        rcases putU_cases c1 4 (y >>> (8 * k - 32)) with ⟨e1, e2⟩ | ⟨c2, e1, e2⟩
        · rw [e1]
          left
          exact ⟨c1, rfl, by have := h3.off; omega⟩
        · rw [e1]
          simp only
          have hw2 : c2.WF := by
            unfold Cur.WF; rw [e2.buf, e2.off, overwrite_len e2.room]; exact e2.room
          have hl2 : c2.buf.length = c1.buf.length := by rw [e2.buf, overwrite_len e2.room]
          have ho2 : c2.off = c1.off + 4 := by rw [e2.off]; simp
          rcases putTail_spec (k - 4) y c2 hw2 with ⟨c', g1, g2⟩ | ⟨bs', c', g1, g2, g3⟩
          · left
            exact ⟨c', g1, by have := h3.off; omega⟩
          · right
            refine ⟨bs ++ (beBytes 4 (y >>> (8 * k - 32)) ++ bs'), c', g1, h3.trans (e2.trans g2), ?_⟩
            refine hfin bs w p k hwl (by omega) (by omega) _ h4 ?_
            rw [← hb, bytesBits_append, g3, bytesBits_be, Nat.shiftRight_eq_div_pow,
              show 8 * (k - 4) = 8 * k - 32 by omega, ← bits_append]
            congr 1; omega
      · rw [if_neg h32]
        rcases putTail_spec k y c1 hw1 with ⟨c', g1, g2⟩ | ⟨bs', c', g1, g2, g3⟩
        · left
          exact ⟨c', g1, by have := h3.off; omega⟩
        · right
          refine ⟨bs ++ bs', c', g1, h3.trans g2, ?_⟩
          exact hfin bs w p k hwl (by omega) (by omega) _ h4 (by rw [g3, hb])

end Verif.Huffman
