import Verif.Stream.RecvHist

/-! # C56 — stream calls do not panic, whatever frames arrived -/

namespace Verif.C56
open Verif Stream RecvBuf

/-- **C56 is false in general**: a RESET_STREAM whose final size exceeds the stream's
limit is refused, but only after the read offset was moved to that final size. If the
application then abandons the stream, `len - off` underflows (a panic in builds with
overflow checks, else a huge amount of credit is added to the connection). -/
theorem shutdown_after_bad_reset_panics :
    (run (start 10 5 5) [.write 0 [1] false, .reset 7 11, .shutdown]).2
      = [.wrote 0 [1] false 1 0, .resetRejected .flowControl, .panic] := by decide

/-- **C56, partial.** In every other history nothing panics: a panic implies that a
RESET_STREAM frame was refused for exceeding the limit. Missing: that case. -/
theorem no_panic_partial (m w mw : Nat) (ops : List ROp)
    (h : .panic ∈ (run (start m w mw) ops).2) : .resetRejected .flowControl ∈ (run (start m w mw) ops).2 := by
  rcases (run_hinv m w mw ops).2 with ⟨-, h1⟩ | h1
  · exact absurd rfl (h1 _ h)
  · exact h1.seen

/-- In particular no history in which every frame is accepted panics. -/
theorem open_connection_no_panic (m w mw : Nat) (ops : List ROp)
    (hd : (run (start m w mw) ops).1.dead = false) : .panic ∉ (run (start m w mw) ops).2 := by
  intro h
  have h1 := no_panic_partial m w mw ops h
  have := (run_hinv m w mw ops).1.mpr ⟨_, h1, rfl⟩
  simp [hd] at this

/-- The same calls after other refused frames are harmless. -/
example : (run (start 10 5 5) [.write 4 [1] false, .reset 7 3, .read 4, .shutdown]).2
    = [.wrote 4 [1] false 5 0, .resetRejected .finalSize, .readErr .done, .shut 5] := by decide

end Verif.C56
