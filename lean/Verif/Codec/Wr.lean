import Verif.Octets.Lemmas

/-! Writing a byte string at the cursor. -/

namespace Verif

/-- `c'` is `c` after writing `bs`. -/
structure Wr (c : Cur) (bs : Bytes) (c' : Cur) : Prop where
  room : c.off + bs.length ≤ c.buf.length
  buf : c'.buf = Cur.overwrite c.buf c.off bs
  off : c'.off = c.off + bs.length

theorem Wr.nil {c : Cur} (h : c.WF) : Wr c [] c :=
  ⟨by unfold Cur.WF at h; simpa using h, by simp [Cur.overwrite], by simp⟩

theorem overwrite_len {buf : Bytes} {off : Nat} {bs : Bytes} (h : off + bs.length ≤ buf.length) :
    (Cur.overwrite buf off bs).length = buf.length := by
  simp [Cur.overwrite]; omega

theorem Wr.trans {c c1 c2 : Cur} {a b : Bytes} (h1 : Wr c a c1) (h2 : Wr c1 b c2) : Wr c (a ++ b) c2 := by
  obtain ⟨r1, b1, o1⟩ := h1
  obtain ⟨r2, b2, o2⟩ := h2
  have hl := overwrite_len r1
  rw [b1, o1, hl] at r2
  refine ⟨by simp; omega, ?_, by rw [o2, o1]; simp; omega⟩
  rw [b2, b1, o1]
  unfold Cur.overwrite
  have e1 : (List.take c.off c.buf).length = c.off := by simp; omega
  have e2 : List.take (c.off + a.length) (List.take c.off c.buf ++ a ++ List.drop (c.off + a.length) c.buf) =
      List.take c.off c.buf ++ a := by
    rw [List.take_append_of_le_length (by simp [e1]), List.take_of_length_le (by simp [e1])]
  have e3 : List.drop (c.off + a.length + b.length)
      (List.take c.off c.buf ++ a ++ List.drop (c.off + a.length) c.buf) = List.drop (c.off + (a ++ b).length) c.buf := by
    have : c.off + a.length + b.length = (List.take c.off c.buf ++ a).length + b.length := by simp [e1]
    rw [this, List.drop_append, List.drop_drop, List.drop_eq_nil_of_le (by omega), List.nil_append]
    congr 1; simp; omega
  rw [e2, e3]
  simp

/-- Writing fails only for lack of room. -/
theorem putU_cases (c : Cur) (n v : Nat) :
    (c.putU n v = (.error .tooShort, c) ∧ c.buf.length < c.off + n) ∨
    ∃ c', c.putU n v = (.ok (), c') ∧ Wr c (beBytes n v) c' := by
  unfold Cur.putU
  by_cases h : c.buf.length < c.off + n
  · rw [if_pos h]; exact .inl ⟨rfl, h⟩
  · rw [if_neg h]; exact .inr ⟨_, rfl, by simp; omega, rfl, by simp⟩

end Verif
