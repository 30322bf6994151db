import Verif.Stream.SendHist

/-! # C60 — a sending stream never panics -/

namespace Verif.C60
open Verif Stream SendBuf

/-- **C60.** In no history does an operation on a sending stream panic: none of the
subtractions on the amount buffered underflows, the insertion into the set of
acknowledged ranges and every index into the queue is in range. -/
theorem no_panic (m0 : Nat) (hm : m0 < 2 ^ 62) (ops : List SOp) (hop : ∀ op ∈ ops, op.Ok) :
    SEv.panic ∉ (run (start m0) ops).2 := (run_hinv hm hop).nopanic

/-- The amount reported as buffered is, at any time, the number of bytes waiting to
be sent; in particular it is zero exactly when the stream is not flushable. -/
theorem buffered_exact (m0 : Nat) (hm : m0 < 2 ^ 62) (ops : List SOp) (hop : ∀ op ∈ ops, op.Ok) :
    (run (start m0) ops).1.s.bufferedBytes = lens (run (start m0) ops).1.s.data ∧
    ((run (start m0) ops).1.s.bufferedBytes = 0 ↔ (run (start m0) ops).1.s.isFlushable = false) := by
  have h := run_hinv hm hop
  refine ⟨h.inv.buf, ?_⟩
  rw [← Bool.not_eq_true, h.inv.flushable, h.inv.buf]
  constructor
  · rintro h0 ⟨o, ho⟩
    have := lens_pos ho
    omega
  · intro hn
    by_cases h0 : lens (run (start m0) ops).1.s.data = 0
    · exact h0
    · exact absurd (pend_of_lens (by omega)) hn

/-- A frame lost after parts of it were acknowledged and dropped, a duplicate
acknowledgement, and a reset in between: the counters stay right. -/
example :
    let r := run (start 9) [.write [1, 2, 3, 4, 5] false, .emit 3, .emit 9, .ack 0, .lost 0, .lost 1,
      .ack 0, .ack 1]
    SEv.panic ∉ r.2 ∧ r.1.s.bufferedBytes = 0 := by decide

end Verif.C60
