import Verif.Stream.RecvHist

/-! # C10 — available data is readable -/

namespace Verif.C10
open Verif Stream RecvBuf

/-- **C10.** If every offset from the read position up to `n` is covered by some
accepted frame, then the next read of at most `cap` bytes succeeds and returns at
least `min cap (n - position)` bytes, and exactly the first accepted ones; it stops
before `cap` only at an offset no frame has covered. -/
theorem read_progress (m w mw : Nat) (ops : List ROp) (cap n : Nat)
    (hreset : wasReset (run (start m w mw) ops).2 = none)
    (hshut : wasShut (run (start m w mw) ops).2 = false)
    (hfl : .resetRejected .flowControl ∉ (run (start m w mw) ops).2)
    (hn : (delivered (run (start m w mw) ops).2).length < n)
    (hcov : ∀ o, (delivered (run (start m w mw) ops).2).length ≤ o → o < n →
      (firstByte (run (start m w mw) ops).2 o).isSome) :
    ∃ bs fin, (step (run (start m w mw) ops).1 (.read cap)).2 = .got bs fin ∧
      min cap (n - (delivered (run (start m w mw) ops).2).length) ≤ bs.length ∧ bs.length ≤ cap ∧
      (∀ i, i < bs.length →
        bs[i]? = firstByte (run (start m w mw) ops).2 ((delivered (run (start m w mw) ops).2).length + i)) ∧
      (bs.length = cap ∨
        firstByte (run (start m w mw) ops).2 ((delivered (run (start m w mw) ops).2).length + bs.length) = none) := by
  rcases (run_hinv m w mw ops).2 with ⟨h, -⟩ | h
  rotate_left
  · exact absurd h.seen hfl
  generalize run (start m w mw) ops = x at *
  obtain ⟨s, es⟩ := x
  simp only at *
  have hoff := h.off hreset hshut
  have hlook := h.look hreset hshut
  have hrdy : s.r.ready = true := by
    rw [ready_iff h.inv]
    left
    rw [hlook _ (Nat.le_refl _)]
    exact hcov _ (by omega) (by omega)
  rcases emit_spec h.inv cap with ⟨hc, -⟩ | ⟨-, e, he, -⟩ | ⟨-, out, fin, r', hw, hR⟩
  · simp [hrdy] at hc
  · rw [h.err, hreset] at he; simp at he
  · obtain ⟨af, haf, -⟩ := almostFull_of hR.inv
    have hbytes : ∀ i, i < out.length → out[i]? = firstByte es ((delivered es).length + i) := by
      intro i hi
      rw [hR.bytes i hi, hlook _ (by omega), hoff]
    have hfull : out.length = cap ∨ firstByte es ((delivered es).length + out.length) = none := by
      rcases hR.full with h1 | h1
      · exact .inl h1
      · right
        rw [hlook _ (by have := hR.off; omega), hR.off, hoff] at h1
        exact h1
    refine ⟨out, fin, by simp [step, hw, haf], ?_, hR.le, hbytes, hfull⟩
    rcases hfull with h1 | h1
    · omega
    · by_cases hc : (delivered es).length + out.length < n
      · have := hcov _ (by omega) hc
        simp [h1] at this
      · omega

/-- After the missing piece arrives everything up to the next gap can be read. -/
example : (step (run (start 100 50 50)
    [.write 2 [3, 4] false, .write 6 [7] false, .read 10, .write 0 [1, 2, 9] false]).1 (.read 10)).2
    = .got [1, 2, 3, 4] false := by decide

end Verif.C10
