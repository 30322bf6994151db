import Verif.Props.C04

/-! # C66 — only the output of the encoder is accepted by the Huffman decoder -/

namespace Verif.C66
open Verif Verif.Huffman

/-- **C66.** If a byte string decodes to `s`, it is what the encoder writes for `s`. -/
theorem decoded_is_encoded (bs s : Bytes) (h : (getHuffman (Cur.withSlice bs)).1 = .ok s) (buf : Bytes)
    (hl : buf.length = bs.length) :
    putHuffman false (Cur.withSlice buf) s = (.ok (), { buf := bs, off := bs.length }) := by
  rw [getHuffman, C04.decode_iff] at h
  obtain ⟨⟨k, hk, hb⟩, -⟩ := h
  have hr : (Cur.withSlice bs).rest = bs := by simp [Cur.withSlice, Cur.rest]
  rw [hr] at hb
  have hlen := congrArg List.length hb
  simp only [bytesBits_length, List.length_append, List.length_replicate] at hlen
  have hw : (Cur.withSlice buf).WF := by simp [Cur.withSlice, Cur.WF]
  rcases putHuffman_spec false (Cur.withSlice buf) hw s with ⟨c', h1, h2⟩ | ⟨bs', c', h1, h2, h3, h4⟩
  · rw [C03.not_lowered] at h2
    simp only [Cur.withSlice] at h2
    omega
  · rw [C03.not_lowered] at h3 h4
    have hl' : bs'.length = bs.length := by omega
    have e : bytesBits bs' = bytesBits bs := by
      rw [h3, hb]; congr 2; omega
    have e2 : bs' = bs := by
      clear h1 h2 h3 h4 hb hlen hr hl
      induction bs' generalizing bs with
      | nil => exact (List.eq_nil_of_length_eq_zero hl'.symm).symm
      | cons a t ih =>
        cases bs with
        | nil => simp at hl'
        | cons b u =>
          rw [bytesBits_cons, bytesBits_cons] at e
          obtain ⟨e1, e2⟩ := List.append_inj e (by simp)
          have := bits_inj (n := 8) (by have := u8_lt a; omega) (by have := u8_lt b; omega) e1
          rw [UInt8.toNat_inj.mp this, ih u (by simpa using hl') e2]
    rw [h1]
    congr 1
    have hb' := h2.buf
    have ho' := h2.off
    obtain ⟨b, o⟩ := c'
    simp only [Cur.withSlice, e2] at hb' ho' ⊢
    rw [hb', ho']
    simp [Cur.overwrite, hl]

/-- Hence no two byte strings decode to the same string. -/
theorem decode_injective (a b s : Bytes) (ha : (getHuffman (Cur.withSlice a)).1 = .ok s)
    (hb : (getHuffman (Cur.withSlice b)).1 = .ok s) : a = b := by
  have h1 := decoded_is_encoded a s ha a rfl
  rw [getHuffman, C04.decode_iff] at ha hb
  obtain ⟨⟨k, hk, h2⟩, -⟩ := ha
  obtain ⟨⟨k', hk', h3⟩, h4⟩ := hb
  have hr : ∀ x, (Cur.withSlice x).rest = x := by intro x; simp [Cur.withSlice, Cur.rest]
  rw [hr] at h2 h3
  have l2 := congrArg List.length h2
  have l3 := congrArg List.length h3
  simp only [bytesBits_length, List.length_append, List.length_replicate] at l2 l3
  have h5 := decoded_is_encoded b s (by
    rw [getHuffman, C04.decode_iff, hr]; exact ⟨⟨k', hk', h3⟩, h4⟩) a (by omega)
  rw [h1] at h5
  simp only [Prod.mk.injEq, Cur.mk.injEq, true_and] at h5
  exact h5.1

/-- Padding with zeros, padding of eight bits and the end-of-string code are refused. -/
example : (getHuffman (Cur.withSlice [0x1f])).1 = .ok [0x61] ∧ (getHuffman (Cur.withSlice [0x18])).1 = .error .tooShort ∧
    (getHuffman (Cur.withSlice [0x1f, 0xff])).1 = .error .tooShort ∧
    (getHuffman (Cur.withSlice [0xff, 0xff, 0xff, 0xff])).1 = .error .tooShort := by decide +kernel

end Verif.C66
