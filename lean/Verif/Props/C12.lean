import Verif.Stream.RecvHist

/-! # C12 — a receiving stream enforces its flow-control limit -/

namespace Verif.C12
open Verif Stream RecvBuf

/-- **C12, enforcement.** In any open connection a STREAM frame ending beyond the
limit in force is answered with a flow control error and changes nothing. -/
theorem beyond_limit_rejected (m w mw : Nat) (ops : List ROp) (off : Nat) (data : Bytes) (fin : Bool)
    (hd : (run (start m w mw) ops).1.dead = false)
    (hl : limit m (run (start m w mw) ops).2 < off + data.length) :
    (step (run (start m w mw) ops).1 (.write off data fin)).2 = .rejected .flowControl ∧
    (step (run (start m w mw) ops).1 (.write off data fin)).1.r = (run (start m w mw) ops).1.r := by
  have h := run_alive hd
  generalize run (start m w mw) ops = x at *
  obtain ⟨s, es⟩ := x
  simp only at *
  have hmo : (RangeBuf.mk' data off fin).maxOff = off + data.length := by simp [RangeBuf.maxOff]
  rcases write_spec h.inv (RangeBuf.wf_mk' data off fin) (by rfl) with ⟨-, hw⟩ | ⟨h1, -⟩ | ⟨h1, -⟩
  · simp [step, hd, hw]
  · rw [hmo, h.lim] at h1; omega
  · rw [hmo, h.lim] at h1; omega

/-- A RESET_STREAM frame with a final size beyond the limit is refused, too. -/
theorem reset_beyond_limit_rejected (m w mw : Nat) (ops : List ROp) (code F : Nat)
    (hd : (run (start m w mw) ops).1.dead = false)
    (hl : limit m (run (start m w mw) ops).2 < F) :
    ∃ e, (step (run (start m w mw) ops).1 (.reset code F)).2 = .resetRejected e := by
  have h := run_alive hd
  generalize run (start m w mw) ops = x at *
  obtain ⟨s, es⟩ := x
  simp only at *
  rcases reset_spec h.inv code F with ⟨-, hw⟩ | ⟨-, -, -, r', hw, -⟩ | ⟨-, -, h1, -⟩
  · exact ⟨_, by simp [step, hd, hw]; rfl⟩
  · exact ⟨_, by simp [step, hd, hw]; rfl⟩
  · rw [h.lim] at h1; omega

/-- A frame within the limit is never refused for flow control. -/
theorem within_limit_not_refused (m w mw : Nat) (ops : List ROp) (off : Nat) (data : Bytes) (fin : Bool)
    (hl : off + data.length ≤ limit m (run (start m w mw) ops).2) :
    (step (run (start m w mw) ops).1 (.write off data fin)).2 ≠ .rejected .flowControl := by
  by_cases hd : (run (start m w mw) ops).1.dead = true
  · simp [step, hd]
  have hd' : (run (start m w mw) ops).1.dead = false := by simpa using hd
  have h := run_alive hd'
  generalize run (start m w mw) ops = x at *
  obtain ⟨s, es⟩ := x
  simp only at *
  have hmo : (RangeBuf.mk' data off fin).maxOff = off + data.length := by simp [RangeBuf.maxOff]
  rcases write_spec h.inv (RangeBuf.wf_mk' data off fin) (by rfl) with ⟨h1, hw⟩ | ⟨h1, -, hw⟩ | ⟨h1, -, r', hw, -⟩
  · rw [hmo, h.lim] at h1; omega
  · simp [step, hd', hw]
  · simp [step, hd', hw]

/-- **C12, recorded data.** Every accepted frame ends within the limit that was in
force when it arrived. -/
theorem accepted_within_limit (m w mw : Nat) (ops : List ROp) (a : List REv) (e : REv) (b : List REv)
    (hes : (run (start m w mw) ops).2 = a ++ e :: b) : e.reach ≤ limit m a := by
  obtain ⟨o1, op, o2, h1, h2, h3⟩ := run_split hes
  by_cases h0 : e.reach = 0
  · omega
  have hd := alive_of_event (s := (run (start m w mw) o1).1) (op := op) (by rw [h3]; right; left; omega)
  have h := run_alive hd
  rw [h2] at h
  generalize (run (start m w mw) o1).1 = s at *
  subst h3
  cases op with
  | write off data fin =>
    have hmo : (RangeBuf.mk' data off fin).maxOff = off + data.length := by simp [RangeBuf.maxOff]
    rcases write_spec h.inv (RangeBuf.wf_mk' data off fin) (by rfl) with ⟨-, hw⟩ | ⟨-, -, hw⟩ | ⟨g, -, r', hw, hW⟩
    · simp [step, hd, hw, REv.reach]
    · simp [step, hd, hw, REv.reach]
    · rw [hmo, h.lim] at g
      simp only [step, hd, hw, REv.reach, Bool.false_eq_true, if_false]
      split <;> omega
  | reset code F =>
    rcases reset_spec h.inv code F with ⟨-, hw⟩ | ⟨-, -, -, r', hw, -⟩ | ⟨-, -, g, ret, r', hw, -⟩
    · simp [step, hd, hw, REv.reach]
    · simp [step, hd, hw, REv.reach]
    · rw [h.lim] at g
      simpa [step, hd, hw, REv.reach] using g
  | read cap =>
    simp only [step]
    split
    · split <;> simp [REv.reach]
    · simp [REv.reach]
  | shutdown => simp only [step]; split <;> simp [REv.reach]
  | send now rtt fits =>
    simp only [step]
    split
    · simp [REv.reach]
    · split
      · split
        · simp [REv.reach]
        · split <;> simp [REv.reach]
      · simp [REv.reach]
  | lost =>
    simp only [step]
    split
    · simp [REv.reach]
    · split <;> simp [REv.reach]

/-- The limit an update advertises is not below the one in force. -/
theorem advert_ge {m w mw : Nat} {ops : List ROp} {a : List REv} {n : Nat} {b : List REv}
    (hes : (run (start m w mw) ops).2 = a ++ .advert n :: b) : limit m a ≤ n := by
  obtain ⟨o1, op, o2, h1, h2, h3⟩ := run_split hes
  have hd := alive_of_event (s := (run (start m w mw) o1).1) (op := op) (by rw [h3]; simp)
  have h := run_alive hd
  obtain ⟨-, j, j3⟩ := step_hinv h op
  rw [h3] at j j3
  rw [h2] at h j
  rcases j with j | j
  · -- what was advertised is the new limit; compare with the pending one
    generalize (run (start m w mw) o1).1 = s at *
    cases op with
    | send now rtt fits =>
      simp only [step, hd, Bool.false_eq_true, if_false] at h3
      by_cases hp : s.pending = true
      · simp only [hp, if_true] at h3
        have hpd := h.pend hp
        have hwin := h.win
        have hlim := h.lim
        split at h3
        · simp at h3
        · split at h3
          · simp only [REv.advert.injEq] at h3
            rw [← h3, ← hlim]
            simp only [FlowControl.maxDataNext] at hpd ⊢
            split
            · simp only [autotuneWindow, FlowControl.autotuneWindow]
              split
              · split
                · simp only [FlowControl.setWindow]; omega
                · exact hpd
              · exact hpd
            · exact hpd
          · simp at h3
      · simp [hp] at h3
    | write off data fin =>
      simp only [step, hd, Bool.false_eq_true, if_false] at h3
      split at h3 <;> simp at h3
    | read cap =>
      simp only [step] at h3
      split at h3
      · split at h3 <;> simp at h3
      · simp at h3
    | reset code F =>
      simp only [step, hd, Bool.false_eq_true, if_false] at h3
      split at h3 <;> simp at h3
    | shutdown => simp only [step] at h3; split at h3 <;> simp at h3
    | lost =>
      simp only [step, hd, Bool.false_eq_true, if_false] at h3
      split at h3 <;> simp at h3
  · have := j3.mp j.dead
    simp [hd, REv.isReject] at this

/-- **C12, monotone limit.** Whatever happened after a point of a history, the limit
in force is at least what it was at that point. -/
theorem limit_monotone (m w mw : Nat) (ops : List ROp) (a b : List REv)
    (hes : (run (start m w mw) ops).2 = a ++ b) : limit m a ≤ limit m (a ++ b) := by
  induction b generalizing a with
  | nil => simp
  | cons e b ih =>
    have h1 := ih (a ++ [e]) (by simp [hes])
    simp only [List.append_assoc, List.singleton_append] at h1
    refine Nat.le_trans ?_ h1
    rw [limit_append]
    cases e with
    | advert n => simp only [limit]; exact advert_ge hes
    | _ => simp [limit]

/-- The limit grows after a read, then a loss makes it be advertised again. -/
example : (run (start 4 4 16) [.write 0 [1, 2, 3, 4] false, .read 3, .send 10 5 true, .write 4 [5, 6] false,
    .lost, .read 2, .send 12 5 true, .write 7 [0, 0, 0] false]).2
    = [.wrote 0 [1, 2, 3, 4] false 4 0, .got [1, 2, 3] false, .advert 7, .wrote 4 [5, 6] false 2 0, .idle,
       .got [4, 5] false, .advert 9, .rejected .flowControl] := by decide

end Verif.C12
