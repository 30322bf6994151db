import Verif.Stream.SendHist

/-! # C19 — a sending stream is complete exactly when everything was acknowledged -/

namespace Verif.C19
open Verif Stream SendBuf

/-- **C19.** After any history a sending stream reports completion if and only if it
was abandoned, or its final size is known and every byte below it was acknowledged
(for a stream without data: some — necessarily empty — frame was). -/
theorem complete_iff (m0 : Nat) (hm : m0 < 2 ^ 62) (ops : List SOp) (hop : ∀ op ∈ ops, op.Ok) :
    (run (start m0) ops).1.s.isComplete = true ↔
      wasCut (run (start m0) ops).2 ∨
      ∃ F, finalSize (run (start m0) ops).2 = some F ∧
        (∀ o, o < F → ackedByte (run (start m0) ops).2 o) ∧
        (F = 0 → ∃ off len, SEv.acked off len ∈ (run (start m0) ops).2) := by
  have h := run_hinv hm hop
  generalize run (start m0) ops = x at *
  obtain ⟨st, es⟩ := x
  simp only at *
  rw [complete_spec h.inv]
  have hf : finalSize es = st.s.finOff := by rw [finalSize_eq, h.acc]
  by_cases hc : wasCut es
  · simp only [hc, true_or, iff_true]
    rcases h.inv.state with hs | hs
    · have := h.cut.mp hc
      simp [hs.1, hs.2.1] at this
    · refine ⟨_, hs.2.1, hs.2.2.2.2.1, ?_⟩
      intro o ho
      have := hs.2.2.2.1
      have hA := ackOffOf_spec h.inv.inv.1
      rw [SendBuf.ackOff_eq] at this
      exact hA.1 o (by omega)
  · simp only [hc, false_or, hf]
    constructor
    · rintro ⟨F, h1, h2, h3⟩
      exact ⟨F, h1, fun o ho => (h.mem hc o).mp (h3 o ho), fun _ => (h.any hc).mp h2⟩
    · rintro ⟨F, h1, h2, h3⟩
      refine ⟨F, h1, ?_, fun o ho => (h.mem hc o).mpr (h2 o ho)⟩
      rw [h.any hc]
      by_cases h0 : F = 0
      · exact h3 h0
      · obtain ⟨a, b, hab, -⟩ := h2 0 (by omega)
        exact ⟨a, b, hab⟩

/-- Acknowledgements out of order, one of them twice: complete exactly with the last. -/
example :
    let ops := [SOp.write [1, 2, 3] true, .emit 1, .emit 1, .emit 9, .ack 2, .ack 0, .ack 2]
    (run (start 9) ops).1.s.isComplete = false ∧
    (run (start 9) (ops ++ [.ack 1])).1.s.isComplete = true := by decide

/-- An empty stream: complete once its only, empty frame is acknowledged. -/
example : (run (start 9) [.write [] true, .emit 1]).1.s.isComplete = false ∧
    (run (start 9) [.write [] true, .emit 1, .ack 0]).1.s.isComplete = true := by decide

end Verif.C19
