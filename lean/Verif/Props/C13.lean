import Verif.Stream.RecvHist

/-! # C13 — end of stream is reported exactly when everything was read -/

namespace Verif.C13
open Verif Stream RecvBuf

/-- **C13.** A read reports the end of the stream if and only if the final size is
known and exactly that many bytes have now been read. -/
theorem fin_iff (m w mw : Nat) (ops : List ROp) (a : List REv) (bs : Bytes) (fin : Bool) (b : List REv)
    (hes : (run (start m w mw) ops).2 = a ++ .got bs fin :: b) :
    fin = true ↔ finalSize a = some (delivered (a ++ [.got bs fin])).length := by
  obtain ⟨o1, op, o2, h1, h2, h3⟩ := run_split hes
  have hh := (run_hinv m w mw o1).2
  rw [h2] at hh
  rcases hh with ⟨h, -⟩ | h
  · obtain ⟨-, j, -⟩ := step_hinv h op
    rw [h3] at j
    generalize (run (start m w mw) o1).1 = s at *
    cases op with
    | read cap =>
      rcases emit_spec h.inv cap with ⟨-, hw⟩ | ⟨-, e, he, hw, -⟩ | ⟨hrd, out, f, r', hw, hR⟩
      · simp [step, hw] at h3
      · simp [step, hw] at h3
      · obtain ⟨af, haf, -⟩ := almostFull_of hR.inv
        simp only [step, hw, haf, REv.got.injEq] at h3
        obtain ⟨rfl, rfl⟩ := h3
        have hR0 : wasReset a = none := by rw [← h.err]; exact hR.noerr
        have hS0 : wasShut a = false := by
          rw [← h.drn]
          cases hdr : s.r.drain with
          | false => rfl
          | true => simp [ready, (h.inv.drn hdr).1] at hrd
        rw [hR.fin, h.finOff, hR.off, h.off hR0 hS0, delivered_append]
        simp [delivered]
    | write off data fin =>
      simp only [step] at h3
      split at h3
      · simp at h3
      · split at h3 <;> simp at h3
    | reset code F =>
      simp only [step] at h3
      split at h3
      · simp at h3
      · split at h3 <;> simp at h3
    | shutdown => simp only [step] at h3; split at h3 <;> simp at h3
    | send now rtt fits =>
      simp only [step] at h3
      split at h3
      · simp at h3
      · split at h3
        · split at h3
          · simp at h3
          · split at h3 <;> simp at h3
        · simp at h3
    | lost =>
      simp only [step] at h3
      split at h3
      · simp at h3
      · split at h3 <;> simp at h3
  · exfalso
    rcases step_dead h.dead op with ⟨cap, rfl⟩ | rfl | hs
    · simp [step, emit, ready, h.data] at h3
    · simp only [step] at h3; split at h3 <;> simp at h3
    · simp [hs] at h3

/-- FIN known early, reported only by the last read. -/
example : (run (start 10 5 5) [.write 1 [2, 3] true, .write 0 [1] false, .read 2, .read 5]).2
    = [.wrote 1 [2, 3] true 3 0, .wrote 0 [1] false 0 0, .got [1, 2] false, .got [3] true] := by decide

end Verif.C13
