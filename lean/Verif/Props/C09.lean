import Verif.Stream.RecvHist

/-! # C09 — stream data is delivered in order, without loss, duplication or corruption -/

namespace Verif.C09
open Verif Stream RecvBuf

/-- The STREAM frame carries bytes of the sequence `S`. -/
def Agrees (S : Nat → UInt8) : ROp → Prop
  | .write off data _ => ∀ i (h : i < data.length), data[i] = S (off + i)
  | _ => True

theorem prefix_of_firstByte (m w mw : Nat) (ops : List ROp) :
    let es := (run (start m w mw) ops).2
    ∀ i, i < (delivered es).length → (delivered es)[i]? = firstByte es i := by
  rcases (run_hinv m w mw ops).2 with ⟨h, -⟩ | h
  · exact h.pre
  · exact h.pre

/-- Accepted frames are among the frames that arrived. -/
theorem wrote_mem {s : RSt} {ops : List ROp} {off data fin c b}
    (h : REv.wrote off data fin c b ∈ (run s ops).2) : ROp.write off data fin ∈ ops := by
  induction ops generalizing s with
  | nil => simp [run] at h
  | cons op ops ih =>
    simp only [run, List.mem_cons] at h
    rcases h with h | h
    · simp only [List.mem_cons]; left
      cases op with
      | write o d f =>
        simp only [step] at h
        split at h
        · simp at h
        · split at h <;> simp at h
          obtain ⟨rfl, rfl, rfl, -⟩ := h; rfl
      | read cap =>
        simp only [step] at h
        split at h
        · split at h <;> simp at h
        · simp at h
      | reset code F =>
        simp only [step] at h
        split at h
        · simp at h
        · split at h <;> simp at h
      | shutdown => simp only [step] at h; split at h <;> simp at h
      | send now rtt fits =>
        simp only [step] at h
        split at h
        · simp at h
        · split at h
          · split at h
            · simp at h
            · split at h <;> simp at h
          · simp at h
      | lost =>
        simp only [step] at h
        split at h
        · simp at h
        · split at h <;> simp at h
    · exact List.mem_cons_of_mem _ (ih h)

theorem firstByte_mem {es : List REv} {o : Nat} {x : UInt8} (h : firstByte es o = some x) :
    ∃ off data fin c b, REv.wrote off data fin c b ∈ es ∧ off ≤ o ∧ o < off + data.length ∧
      data[o - off]? = some x := by
  induction es with
  | nil => simp [firstByte] at h
  | cons e t ih =>
    cases e with
    | wrote off data fin c b =>
      simp only [firstByte] at h
      split at h
      · rename_i hc; exact ⟨off, data, fin, c, b, by simp, hc.1, hc.2, h⟩
      · obtain ⟨o', d', f', c', b', h1, h2⟩ := ih h
        exact ⟨o', d', f', c', b', by simp [h1], h2⟩
    | _ =>
      obtain ⟨o', d', f', c', b', h1, h2⟩ := ih (by simpa only [firstByte] using h)
      exact ⟨o', d', f', c', b', by simp [h1], h2⟩

/-- **C09.** If all frames agree with the sequence `S`, then whatever was read so far
is the initial segment of `S` of that length: for every schedule of frames (split,
reordered, duplicated, overlapping, with or without FIN), reads of any size, resets,
shutdowns and window updates. -/
theorem delivered_is_prefix (S : Nat → UInt8) (m w mw : Nat) (ops : List ROp)
    (hS : ∀ op ∈ ops, Agrees S op) :
    delivered (run (start m w mw) ops).2 =
      (List.range (delivered (run (start m w mw) ops).2).length).map S := by
  apply List.ext_getElem (by simp)
  intro i hi _
  have h1 := prefix_of_firstByte m w mw ops i hi
  rw [List.getElem?_eq_getElem hi] at h1
  obtain ⟨off, data, fin, c, b, hm, h2, h3, h4⟩ := firstByte_mem h1.symm
  have h5 := hS _ (wrote_mem hm) (i - off) (by omega)
  rw [List.getElem?_eq_getElem (by omega)] at h4
  simp only [Option.some.injEq] at h4
  simp only [List.getElem_map, List.getElem_range]
  rw [← h4, h5]
  congr 1; omega

/-- Even if the peer contradicts itself, the first accepted byte for each offset is
the one delivered, so what was read never depends on later frames. -/
theorem first_accepted_wins (m w mw : Nat) (ops : List ROp) (i : Nat)
    (hi : i < (delivered (run (start m w mw) ops).2).length) :
    (delivered (run (start m w mw) ops).2)[i]? = firstByte (run (start m w mw) ops).2 i :=
  prefix_of_firstByte m w mw ops i hi

/-- Overlapping, reordered frames with reads in between. -/
example : delivered (run (start 100 50 50)
    [.write 4 [5, 6, 7] false, .write 0 [1, 2] false, .read 1, .write 1 [2, 3, 4, 5] false, .read 3,
     .write 0 [1, 2, 3, 4, 5, 6, 7, 8] true, .read 100]).2 = [1, 2, 3, 4, 5, 6, 7, 8] := by decide

end Verif.C09
