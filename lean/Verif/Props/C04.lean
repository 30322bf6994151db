import Verif.Props.C03

/-! # C04 — Huffman decoding with a size limit never exceeds it -/

namespace Verif.C04
open Verif Verif.Huffman

/-- What a decoder returns, for every limit. -/
theorem decode_iff (c : Cur) (maxLen : Nat) (s : Bytes) :
    (getHuffmanMax c maxLen).1 = .ok s ↔ Valid (bytesBits c.rest) s ∧ s.length ≤ maxLen := by
  unfold getHuffmanMax
  obtain ⟨h1, -, -, -⟩ := decLoop_spec maxLen c.rest 0 [] false 0 (by omega) ⟨fun _ => ⟨0, by omega, rfl⟩, fun _ => .inl rfl⟩
    (by simp)
  generalize decLoop maxLen c.rest 0 [] false 0 = r at *
  obtain ⟨r, n⟩ := r
  simp only at h1 ⊢
  rw [h1 s]
  constructor
  · rintro ⟨⟨t, rfl, ht⟩, hl⟩
    rw [path_zero] at ht
    exact ⟨by simpa using ht, hl⟩
  · rintro ⟨ht, hl⟩
    exact ⟨⟨s, by simp, by rw [path_zero]; simpa using ht⟩, hl⟩

/-- **C04.** Decoding with a limit fails, or returns a string within the limit, namely
the one the unlimited decoder returns; and it fails only if that string is too long or
there is none. -/
theorem limited (c : Cur) (maxLen : Nat) (hm : maxLen ≤ usizeMax) :
    (∀ s, (getHuffmanMax c maxLen).1 = .ok s → s.length ≤ maxLen ∧ (getHuffman c).1 = .ok s) ∧
    (∀ s, (getHuffman c).1 = .ok s → s.length ≤ maxLen → (getHuffmanMax c maxLen).1 = .ok s) ∧
    (∀ e, (getHuffmanMax c maxLen).1 = .error e → e = .tooShort) := by
  refine ⟨?_, ?_, ?_⟩
  · intro s h
    rw [decode_iff] at h
    exact ⟨h.2, (decode_iff _ _ _).mpr ⟨h.1, by omega⟩⟩
  · intro s h hl
    rw [getHuffman, decode_iff] at h
    exact (decode_iff _ _ _).mpr ⟨h.1, hl⟩
  · intro e
    obtain ⟨-, h2, -, -⟩ := decLoop_spec maxLen c.rest 0 [] false 0 (by omega)
      ⟨fun _ => ⟨0, by omega, rfl⟩, fun _ => .inl rfl⟩ (by simp)
    unfold getHuffmanMax
    exact h2 e

/-- Five letters with limits five and four. -/
example : (getHuffmanMax (Cur.withSlice [0x9c, 0xb4, 0x50, 0x7f]) 4).1 = .error .tooShort ∧
    (getHuffmanMax (Cur.withSlice [0x9c, 0xb4, 0x50, 0x7f]) 5).1 = .ok [0x68, 0x65, 0x6c, 0x6c, 0x6f] := by
  decide +kernel

end Verif.C04
