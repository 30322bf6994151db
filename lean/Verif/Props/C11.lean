import Verif.Stream.RecvHist

/-! # C11 — the final size of a stream is immutable -/

namespace Verif.C11
open Verif Stream RecvBuf

/-- State and events after a history. -/
abbrev st (m w mw : Nat) (ops : List ROp) : RSt := (run (start m w mw) ops).1
abbrev evs (m w mw : Nat) (ops : List ROp) : List REv := (run (start m w mw) ops).2

theorem alive {m w mw : Nat} {ops : List ROp} (hd : (st m w mw ops).dead = false) :
    HInv m (st m w mw ops) (evs m w mw ops) := by
  rcases (run_hinv m w mw ops).2 with ⟨h, -⟩ | h
  · exact h
  · have := h.dead; simp [st] at hd; simp [hd] at this

/-- **C11, rejection.** In any open connection, a STREAM frame that reaches beyond a
known final size, states a different one, or states one below data already received
is refused: with a flow control error if it also exceeds the stream's limit, else with
a final size error. The stream's state is left as it was. -/
theorem stream_frame_rejected (m w mw : Nat) (ops : List ROp) (off : Nat) (data : Bytes) (fin : Bool)
    (hd : (st m w mw ops).dead = false)
    (hbad : (∃ F, finalSize (evs m w mw ops) = some F ∧
        (F < off + data.length ∨ (fin = true ∧ off + data.length ≠ F))) ∨
      (fin = true ∧ off + data.length < highest (evs m w mw ops))) :
    (step (st m w mw ops) (.write off data fin)).2 =
      .rejected (if limit m (evs m w mw ops) < off + data.length then .flowControl else .finalSize) ∧
    (step (st m w mw ops) (.write off data fin)).1.r = (st m w mw ops).r := by
  have h := alive hd
  generalize st m w mw ops = s at *
  generalize evs m w mw ops = es at *
  have hmo : (RangeBuf.mk' data off fin).maxOff = off + data.length := by simp [RangeBuf.maxOff]
  rcases write_spec h.inv (RangeBuf.wf_mk' data off fin) (by rfl) with ⟨h1, hw⟩ | ⟨h1, -, hw⟩ | ⟨-, hnb, -⟩
  · rw [hmo, h.lim] at h1
    simp [step, hd, hw, h1]
  · rw [hmo, h.lim] at h1
    simp [step, hd, hw, Nat.not_lt.mpr h1]
  · exfalso
    apply hnb
    rcases hbad with ⟨F, h1, h2⟩ | h1
    · left
      refine ⟨F, by rw [h.finOff, h1], ?_⟩
      rw [hmo]
      rcases h2 with h2 | ⟨h2, h3⟩
      · exact .inl h2
      · exact .inr ⟨h2, fun h => h3 h.symm⟩
    · right; rw [hmo, h.len]; exact h1

/-- Likewise for RESET_STREAM. -/
theorem reset_frame_rejected (m w mw : Nat) (ops : List ROp) (code G : Nat)
    (hd : (st m w mw ops).dead = false)
    (hbad : (∃ F, finalSize (evs m w mw ops) = some F ∧ G ≠ F) ∨ G < highest (evs m w mw ops)) :
    (step (st m w mw ops) (.reset code G)).2 = .resetRejected .finalSize ∧
    (step (st m w mw ops) (.reset code G)).1.r = (st m w mw ops).r := by
  have h := alive hd
  generalize st m w mw ops = s at *
  generalize evs m w mw ops = es at *
  rcases reset_spec h.inv code G with ⟨-, hw⟩ | ⟨h1, h2, -⟩ | ⟨h1, h2, -⟩
  · simp [step, hd, hw]
  all_goals
    exfalso
    rcases hbad with ⟨F, h3, h4⟩ | h3
    · exact h4 (h1 F (by rw [h.finOff, h3])).symm
    · rw [← h.len] at h3; omega

/-- **C11, immutability.** In every history all accepted frames that state a final
size state the same one, it is the one first stated, and no accepted frame carries
data beyond it. -/
theorem final_size_unique (m w mw : Nat) (ops : List ROp) (e : REv) (he : e ∈ evs m w mw ops) :
    (∀ F, e.final = some F → finalSize (evs m w mw ops) = some F) ∧
    (∀ F, finalSize (evs m w mw ops) = some F → e.reach ≤ F) := by
  constructor
  · intro F hF
    obtain ⟨o1, op, o2, b, h1, h2, h3⟩ := run_mem_split he
    have hd := alive_of_event (s := (run (start m w mw) o1).1) (op := op) (by rw [h2]; simp [hF])
    have h := run_alive hd
    have hrec := step_final h (op := op) (F := F) (by rw [h2]; exact hF)
    obtain ⟨-, j2, j3⟩ := step_hinv h op
    rw [h2] at j2 j3
    rcases j2 with j2 | j2
    · rw [j2.finOff] at hrec
      simp only [evs, h3, List.append_cons _ e b, finalSize_append, hrec, Option.some_or]
    · have := j3.mp j2.dead
      simp only [hd, Bool.false_eq_true, false_or] at this
      cases e <;> simp [REv.isReject] at this <;> simp [REv.final] at hF
  · intro F hF
    have hr : e.reach ≤ highest (evs m w mw ops) := by
      obtain ⟨o1, op, o2, b, h1, h2, h3⟩ := run_mem_split he
      simp only [evs, h3, highest_append, highest]; omega
    rcases (run_hinv m w mw ops).2 with ⟨h, -⟩ | h
    · have := h.inv.fin F (by rw [h.finOff]; exact hF)
      have := h.len
      simp only [evs] at hr; omega
    · have := h.hi F hF; simp only [evs] at hr; omega

/-- Final size 3 is learnt, then contradicted in each possible way. -/
example : (run (start 10 5 5) [.write 0 [1, 2, 3] true, .write 0 [1, 2, 3] true, .write 3 [] false]).2
    = [.wrote 0 [1, 2, 3] true 3 0, .wrote 0 [1, 2, 3] true 0 0, .wrote 3 [] false 0 0] ∧
    (run (start 10 5 5) [.write 0 [1, 2, 3] true, .write 3 [4] false]).2
      = [.wrote 0 [1, 2, 3] true 3 0, .rejected .finalSize] ∧
    (run (start 10 5 5) [.write 0 [1, 2, 3] true, .write 0 [1] true]).2
      = [.wrote 0 [1, 2, 3] true 3 0, .rejected .finalSize] ∧
    (run (start 10 5 5) [.write 0 [1, 2, 3] true, .reset 7 4]).2
      = [.wrote 0 [1, 2, 3] true 3 0, .resetRejected .finalSize] ∧
    (run (start 10 5 5) [.write 4 [5] false, .write 0 [1] true]).2
      = [.wrote 4 [5] false 5 0, .rejected .finalSize] := by decide

end Verif.C11
