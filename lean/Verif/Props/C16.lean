import Verif.Stream.SendHist

/-! # C16 — everything sent on a stream is what the application wrote -/

namespace Verif.C16
open Verif Stream SendBuf

/-- **C16.** In every history (writes, frames of arbitrary sizes, acknowledgements and
losses of arbitrary frames in any order and any number of times, limit updates,
abandonment), a STREAM frame `(off, bs, fin)` carries exactly the bytes the application
had written at `off, off+1, …`; and it has the FIN flag exactly when it ends at the
final size of the stream. -/
theorem sent_is_written (m0 : Nat) (hm : m0 < 2 ^ 62) (ops : List SOp) (hop : ∀ op ∈ ops, op.Ok)
    (a b : List SEv) (off : Nat) (bs : Bytes) (fin : Bool)
    (hes : (run (start m0) ops).2 = a ++ .sent off bs fin :: b) :
    bs = ((written a).drop off).take bs.length ∧
    (fin = true ↔ finalSize a = some (off + bs.length)) ∧
    (∀ F, finalSize a = some F → off + bs.length ≤ F) := by
  obtain ⟨o1, op, o2, h1, h2, h3⟩ := run_split hes
  have h := run_hinv hm (ops := o1) (fun o ho => hop o (by simp [h1, ho]))
  rw [h2] at h
  obtain ⟨n, s', -, rfl, -, S, -⟩ := step_sent h h3
  generalize (run (start m0) o1).1 = st at *
  have hf : finalSize a = st.s.finOff := by rw [finalSize_eq, h.acc]
  refine ⟨?_, ?_, ?_⟩
  · apply List.ext_getElem?
    intro j
    by_cases hj : j < bs.length
    · rw [S.bytes j hj, List.getElem?_take_of_lt hj, List.getElem?_drop]
    · rw [List.getElem?_eq_none (by omega), List.getElem?_eq_none]
      rw [List.length_take]; omega
  · rw [S.finFlag, hf]; simp
  · intro F hF
    rw [hf] at hF
    have := h.inv.fin F hF
    have := S.bound
    omega

/-- The bytes written first stay what they are: later writes only append. -/
theorem written_only_grows (m0 : Nat) (ops more : List SOp) :
    ∃ w, written (run (start m0) (ops ++ more)).2 = written (run (start m0) ops).2 ++ w :=
  ⟨written (run (run (start m0) ops).1 more).2, by rw [run_append, written_append]⟩

/-- A frame is lost, its middle was acknowledged through another frame; the
retransmission consists of two frames around the acknowledged part, and FIN is set on
the last one. -/
example : (run (start 100) [.write [1, 2, 3, 4, 5, 6] true, .emit 2, .emit 2, .emit 9, .ack 1,
      .lost 2, .lost 0, .emit 9, .emit 9]).2 =
    [.offered [1, 2, 3, 4, 5, 6] true 6, .sent 0 [1, 2] false, .sent 2 [3, 4] false,
     .sent 4 [5, 6] true, .acked 2 2, .lost 4 2, .lost 0 2, .sent 0 [1, 2] false,
     .sent 4 [5, 6] true] := by decide

end Verif.C16
