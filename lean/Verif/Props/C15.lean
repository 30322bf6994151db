import Verif.Stream.RecvHist

/-! # C15 — resetting or abandoning a stream returns exactly the unconsumed credit -/

namespace Verif.C15
open Verif Stream RecvBuf

/-- **C15 is false in general**: an empty STREAM frame without FIN beyond the data
received so far is charged to the connection but not remembered by the stream, so that
it is charged again later and never given back. -/
theorem empty_frame_leaks_credit :
    ∃ ops, (run (start 100 50 50) ops).1.dead = false ∧
      charged (run (start 100 50 50) ops).2 = 200 ∧ highest (run (start 100 50 50) ops).2 = 100 ∧
      wasReset (run (start 100 50 50) ops).2 = some 7 ∧ returned (run (start 100 50 50) ops).2 = 100 :=
  ⟨[.write 100 [] false, .reset 7 100], by decide⟩

/-- **C15, partial.** In every history without such frames, after a reset or shutdown
what was handed back (including what was read) equals what was charged, and this stays
so whatever arrives later. Missing: histories with empty non-FIN frames beyond the
highest offset received, for which the claim is false. -/
theorem credit_exact_partial (m w mw : Nat) (ops : List ROp)
    (hd : (run (start m w mw) ops).1.dead = false)
    (hclean : ∀ e ∈ (run (start m w mw) ops).2, e.stray = false)
    (hend : wasReset (run (start m w mw) ops).2 ≠ none ∨ wasShut (run (start m w mw) ops).2 = true) :
    returned (run (start m w mw) ops).2 = charged (run (start m w mw) ops).2 := by
  have h := run_alive hd
  obtain ⟨h1, h2⟩ := h.ret hclean
  have : (run (start m w mw) ops).1.r.off = (run (start m w mw) ops).1.r.len := by
    rcases hend with he | he
    · have he' : (run (start m w mw) ops).1.r.error.isSome := by
        rw [h.err]; exact Option.isSome_iff_ne_none.mpr he
      have h3 := (h.inv.err he').1
      exact (h.inv.fin _ h3).symm
    · exact (h.inv.drn (by rw [h.drn]; exact he)).2
  omega

/-- At all times what was charged is the highest offset received, and what was handed
back does not exceed it. -/
theorem charged_is_highest_partial (m w mw : Nat) (ops : List ROp)
    (hd : (run (start m w mw) ops).1.dead = false)
    (hclean : ∀ e ∈ (run (start m w mw) ops).2, e.stray = false) :
    charged (run (start m w mw) ops).2 = highest (run (start m w mw) ops).2 ∧
    returned (run (start m w mw) ops).2 ≤ charged (run (start m w mw) ops).2 ∧
    (wasReset (run (start m w mw) ops).2 = none → wasShut (run (start m w mw) ops).2 = false →
      returned (run (start m w mw) ops).2 = (delivered (run (start m w mw) ops).2).length) := by
  have h := run_alive hd
  obtain ⟨h1, h2⟩ := h.ret hclean
  have h3 := h.inv.offlen
  have h4 := h.len
  refine ⟨by omega, by omega, fun a b => ?_⟩
  rw [h1, h.off a b]

/-- Without the restriction, the connection is charged at least what was received. -/
theorem charged_ge_highest (m w mw : Nat) (ops : List ROp) (hd : (run (start m w mw) ops).1.dead = false) :
    highest (run (start m w mw) ops).2 ≤ charged (run (start m w mw) ops).2 := by
  have h := run_alive hd
  have := h.chg
  rw [← h.len]; exact this

/-- Reading one byte, shutting down, then receiving more and a reset. -/
example : (run (start 100 50 50) [.write 0 [1, 2, 3] false, .read 1, .shutdown, .write 2 [3, 4, 5] false,
    .reset 7 9]).2
    = [.wrote 0 [1, 2, 3] false 3 0, .got [1] false, .shut 2, .wrote 2 [3, 4, 5] false 2 2, .resetOk 7 9 4 4] := by
  decide

end Verif.C15
