import Verif.Huffman.Encode

/-! # C03 — Huffman coding of header strings is lossless -/

namespace Verif.C03
open Verif Verif.Huffman

/-- Specification of lower-casing: the letters A to Z are replaced by a to z. -/
def Lowered (v v' : Bytes) : Prop :=
  v'.length = v.length ∧ ∀ i (h : i < v.length) (h' : i < v'.length),
    (0x41 ≤ v[i].toNat ∧ v[i].toNat ≤ 0x5a → v'[i].toNat = v[i].toNat + 0x20) ∧
    (¬ (0x41 ≤ v[i].toNat ∧ v[i].toNat ≤ 0x5a) → v'[i] = v[i])

theorem lowered (v : Bytes) : Lowered v (v.map (fold true)) := by
  refine ⟨by simp, ?_⟩
  intro i h h'
  simp only [List.getElem_map, fold, lower, if_true]
  have e1 : (65 : UInt8) ≤ v[i] ↔ 0x41 ≤ v[i].toNat := UInt8.le_iff_toNat_le
  have e2 : v[i] ≤ (90 : UInt8) ↔ v[i].toNat ≤ 0x5a := UInt8.le_iff_toNat_le
  rw [← e1, ← e2]
  constructor
  · intro hc
    rw [if_pos hc]
    rw [e1, e2] at hc
    rw [UInt8.toNat_add]
    have : (32 : UInt8).toNat = 32 := rfl
    rw [this]; omega
  · intro hc; rw [if_neg hc]

theorem not_lowered (v : Bytes) : v.map (fold false) = v := by
  have : fold false = id := by funext b; rfl
  rw [this]; simp

theorem foldl_len (lc : Bool) (v : Bytes) (n : Nat) :
    v.foldl (fun n b => n + (entry (fold lc b).toNat).1) n = n + (codes (v.map (fold lc))).length := by
  induction v generalizing n with
  | nil => rfl
  | cons b t ih =>
    simp only [List.foldl_cons, List.map_cons, codes_cons, List.length_append, code_length]
    rw [ih]; omega

/-- The reported length. -/
theorem encodingLen_eq (lc : Bool) (v : Bytes) : encodingLen lc v =
    if ((codes (v.map (fold lc))).length + 7) / 8 > v.length then .error .tooShort
    else .ok (((codes (v.map (fold lc))).length + 7) / 8) := by
  unfold encodingLen
  simp only [foldl_len, Nat.zero_add]
  generalize (codes (v.map (fold lc))).length = n
  have e : (if n &&& 7 ≠ 0 then n / 8 + 1 else n / 8) = (n + 7) / 8 := by
    rw [show (7 : Nat) = 2 ^ 3 - 1 from rfl, Nat.and_two_pow_sub_one_eq_mod]
    split <;> omega
  rw [e]

/-- Decoding bits that are the codes of a string and fewer than eight ones. -/
theorem decode_valid {bs s : Bytes} (h : Valid (bytesBits bs) s) {maxLen : Nat} (hl : s.length ≤ maxLen) (pre : Bytes) :
    getHuffmanMax { buf := pre ++ bs, off := pre.length } maxLen =
      (.ok s, { buf := pre ++ bs, off := pre.length + bs.length }) := by
  unfold getHuffmanMax
  have hr : Cur.rest { buf := pre ++ bs, off := pre.length } = bs := by simp [Cur.rest]
  rw [hr]
  obtain ⟨h1, -, -, h4⟩ := decLoop_spec maxLen bs 0 [] false 0 (by omega) ⟨fun _ => ⟨0, by omega, rfl⟩, fun _ => .inl rfl⟩
    (by simp)
  have h5 := (h1 s).mpr ⟨⟨s, by simp, by rw [path_zero, List.nil_append]; exact h⟩, hl⟩
  have h6 := h4 s h5
  generalize decLoop maxLen bs 0 [] false 0 = r at *
  obtain ⟨r, n⟩ := r
  simp only at h5 h6 ⊢
  rw [h5, h6, Nat.zero_add]

/-- **C03.** The encoder writes exactly the reported number of bytes if they fit (and
fails otherwise), leaves the rest of the buffer alone, and the bytes written decode to
the string, lower-cased if that was asked for. -/
theorem huffman_roundtrip (lc : Bool) (c : Cur) (hw : c.WF) (v : Bytes) (hv : v.length < 2 ^ 64) (n : Nat)
    (hn : encodingLen lc v = .ok n) :
    (c.cap < n → (putHuffman lc c v).1 = .error .tooShort) ∧
    (n ≤ c.cap → ∃ c' bs v', putHuffman lc c v = (.ok (), c') ∧ bs.length = n ∧
      c'.off = c.off + n ∧ c'.buf = c.buf.take c.off ++ bs ++ c.buf.drop (c.off + n) ∧
      (if lc then Lowered v v' else v' = v) ∧
      ∀ pre, getHuffman { buf := pre ++ bs, off := pre.length } =
        (.ok v', { buf := pre ++ bs, off := pre.length + n })) := by
  rw [encodingLen_eq] at hn
  split at hn
  · cases hn
  · simp only [Except.ok.injEq] at hn
    unfold Cur.WF at hw
    unfold Cur.cap
    rcases putHuffman_spec lc c hw v with ⟨c', h1, h2⟩ | ⟨bs, c', h1, h2, h3, h4⟩
    · exact ⟨fun _ => by rw [h1], fun h => by omega⟩
    · have h5 := h2.room
      refine ⟨fun h => by omega, fun _ => ⟨c', bs, v.map (fold lc), h1, by omega, by rw [h2.off]; omega, ?_, ?_, ?_⟩⟩
      · rw [h2.buf, ← hn, ← h4]; rfl
      · cases lc with
        | true => exact lowered v
        | false => exact not_lowered v
      · intro pre
        have hval : Valid (bytesBits bs) (v.map (fold lc)) := ⟨_, by omega, h3⟩
        rw [getHuffman, decode_valid hval (by simp [usizeMax] at hv ⊢; omega), h4, hn]

/-- The round trip also holds when no length is reported because the code is longer than
the string. -/
theorem roundtrip_any (lc : Bool) (c : Cur) (hw : c.WF) (v : Bytes) (hv : v.length < 2 ^ 64) (c' : Cur)
    (h : putHuffman lc c v = (.ok (), c')) :
    getHuffman { buf := c'.buf.take c'.off, off := c.off } =
      (.ok (v.map (fold lc)), { buf := c'.buf.take c'.off, off := c'.off }) := by
  rcases putHuffman_spec lc c hw v with ⟨c'', h1, h2⟩ | ⟨bs, c'', h1, h2, h3, h4⟩
  · rw [h1] at h; cases h
  · rw [h1] at h
    cases h
    have hr := h2.room
    have hl : (c.buf.take c.off).length = c.off := by simp; omega
    have e : c'.buf.take c'.off = c.buf.take c.off ++ bs := by
      rw [h2.buf, h2.off, Cur.overwrite, List.take_append_of_le_length (by simp [hl]), List.take_of_length_le (by simp [hl])]
    have hval : Valid (bytesBits bs) (v.map (fold lc)) := ⟨_, by omega, h3⟩
    have hd := decode_valid hval (maxLen := usizeMax) (by simp [usizeMax] at hv ⊢; omega) (c.buf.take c.off)
    rw [hl] at hd
    rw [e, h2.off]
    exact hd

/-- "www.example.com" (RFC 7541, C.4.1). -/
example : putHuffman true (Cur.withSlice (List.replicate 12 0))
      [0x77, 0x77, 0x57, 0x2e, 0x65, 0x58, 0x61, 0x6d, 0x70, 0x6c, 0x65, 0x2e, 0x63, 0x6f, 0x6d] =
    (.ok (), { buf := [0xf1, 0xe3, 0xc2, 0xe5, 0xf2, 0x3a, 0x6b, 0xa0, 0xab, 0x90, 0xf4, 0xff], off := 12 }) ∧
    encodingLen true
      [0x77, 0x77, 0x57, 0x2e, 0x65, 0x58, 0x61, 0x6d, 0x70, 0x6c, 0x65, 0x2e, 0x63, 0x6f, 0x6d] = .ok 12 := by
  decide +kernel

end Verif.C03
