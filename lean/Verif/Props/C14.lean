import Verif.Stream.RecvHist

/-! # C14 — a reset by the peer is reported to the application -/

namespace Verif.C14
open Verif Stream RecvBuf

/-- What C14 asks for after the events `es` in state `s`: the stream was reset with
`code`, the application neither abandoned the stream nor was told yet, so the stream
is readable and a read reports the reset. -/
def Reported (s : RSt) (code : Nat) : Prop :=
  s.r.ready = true ∧ ∀ cap, (step s (.read cap)).2 = .readErr (.streamReset code)

/-- **C14 is false in general**: the peer sends everything with FIN and then resets the
stream (as permitted while data is unacknowledged) before the application has read
it. The frame is accepted, the data is dropped, but the stream is not readable and
reads report that there is nothing, for ever. -/
theorem reset_after_fin_not_reported :
    ∃ ops code F, (run (start 10 5 5) ops).1.dead = false ∧
      wasShut (run (start 10 5 5) ops).2 = false ∧
      (delivered (run (start 10 5 5) ops).2).length < F ∧
      (∃ c b, (step (run (start 10 5 5) ops).1 (.reset code F)).2 = .resetOk code F c b) ∧
      ¬ Reported (step (run (start 10 5 5) ops).1 (.reset code F)).1 code ∧
      ∀ cap, (step (step (run (start 10 5 5) ops).1 (.reset code F)).1 (.read cap)).2 = .readErr .done := by
  refine ⟨[.write 0 [1, 2, 3] true, .read 1], 7, 3, by decide, by decide, by decide, ⟨0, 2, by decide⟩, ?_, ?_⟩
  · intro h
    exact absurd h.1 (by decide)
  · intro cap
    have : ((step (run (start 10 5 5) [.write 0 [1, 2, 3] true, .read 1]).1 (.reset 7 3)).1).r.ready = false := by
      decide
    simp [step, emit, this] at *

/-- In fact this always happens when the final size was known before the reset: such
a reset is never reported. -/
theorem reset_after_fin_never_readable (m w mw : Nat) (ops : List ROp) (code F c b : Nat)
    (hreset : wasReset (run (start m w mw) ops).2 = none)
    (hknown : (finalSize (run (start m w mw) ops).2).isSome)
    (hacc : (step (run (start m w mw) ops).1 (.reset code F)).2 = .resetOk code F c b) :
    (step (run (start m w mw) ops).1 (.reset code F)).1.r.ready = false := by
  have hd := alive_of_event (s := (run (start m w mw) ops).1) (op := .reset code F) (by rw [hacc]; simp [REv.final])
  have h := run_alive hd
  generalize run (start m w mw) ops = x at *
  obtain ⟨s, es⟩ := x
  simp only at *
  rcases reset_spec h.inv code F with ⟨-, hw⟩ | ⟨-, -, -, r', hw, -⟩ | ⟨-, -, -, ret, r', hw, hR⟩
  · simp [step, hd, hw] at hacc
  · simp [step, hd, hw] at hacc
  · simp only [step, hd, hw, Bool.false_eq_true, if_false]
    exact hR.notReady (by rw [h.err, hreset]) (by rw [h.finOff]; exact hknown)

/-- **C14, partial.** If the final size was not known before (the usual case), an
accepted reset of a stream that was not abandoned makes it readable and the next read
reports the code. Missing: resets that arrive after the final size is known, for which
the claim is false (`reset_after_fin_not_reported`). -/
theorem reset_reported_partial (m w mw : Nat) (ops : List ROp) (code F c b : Nat)
    (hshut : wasShut (run (start m w mw) ops).2 = false)
    (hfin : finalSize (run (start m w mw) ops).2 = none)
    (hacc : (step (run (start m w mw) ops).1 (.reset code F)).2 = .resetOk code F c b) :
    Reported (step (run (start m w mw) ops).1 (.reset code F)).1 code := by
  have hd := alive_of_event (s := (run (start m w mw) ops).1) (op := .reset code F) (by rw [hacc]; simp [REv.final])
  have h := run_alive hd
  have hreset : wasReset (run (start m w mw) ops).2 = none := by
    cases hr : wasReset (run (start m w mw) ops).2 with
    | none => rfl
    | some x =>
      have := (h.inv.err (by rw [h.err, hr]; rfl)).1
      rw [h.finOff, hfin] at this
      simp at this
  generalize run (start m w mw) ops = x at *
  obtain ⟨s, es⟩ := x
  simp only at *
  rcases reset_spec h.inv code F with ⟨-, hw⟩ | ⟨-, -, -, r', hw, -⟩ | ⟨-, -, -, ret, r', hw, hR⟩
  · simp [step, hd, hw] at hacc
  · simp [step, hd, hw] at hacc
  · simp only [step, hd, hw, Bool.false_eq_true, if_false]
    have hr := hR.ready (by rw [h.finOff]; exact hfin) (by rw [h.drn]; exact hshut)
    have he := hR.error
    rw [h.err, hreset] at he
    refine ⟨hr, fun cap => ?_⟩
    have : r'.emit cap = (.error (.streamReset code), { r' with data := [] }) := by
      simp [emit, hr, he]
    simp [step, this]

/-- Whether or not the final size was known, no data is delivered after a reset. -/
theorem no_data_after_reset (m w mw : Nat) (ops : List ROp) (a : List REv) (bs : Bytes) (fin : Bool) (b : List REv)
    (hes : (run (start m w mw) ops).2 = a ++ .got bs fin :: b) : wasReset a = none := by
  obtain ⟨o1, op, o2, h1, h2, h3⟩ := run_split hes
  have hh := (run_hinv m w mw o1).2
  rw [h2] at hh
  generalize (run (start m w mw) o1).1 = s at *
  have hread : ∃ cap, op = .read cap := by
    cases op with
    | read cap => exact ⟨cap, rfl⟩
    | write off data fin =>
      simp only [step] at h3
      split at h3
      · simp at h3
      · split at h3 <;> simp at h3
    | reset code F =>
      simp only [step] at h3
      split at h3
      · simp at h3
      · split at h3 <;> simp at h3
    | shutdown => simp only [step] at h3; split at h3 <;> simp at h3
    | send now rtt fits =>
      simp only [step] at h3
      split at h3
      · simp at h3
      · split at h3
        · split at h3
          · simp at h3
          · split at h3 <;> simp at h3
        · simp at h3
    | lost =>
      simp only [step] at h3
      split at h3
      · simp at h3
      · split at h3 <;> simp at h3
  obtain ⟨cap, rfl⟩ := hread
  rcases hh with ⟨h, -⟩ | h
  · rcases emit_spec h.inv cap with ⟨-, hw⟩ | ⟨-, e, he, hw, -⟩ | ⟨hrd, out, f, r', hw, hR⟩
    · simp [step, hw] at h3
    · simp [step, hw] at h3
    · rw [← h.err]; exact hR.noerr
  · simp [step, emit, ready, h.data] at h3

/-- A reset in the middle of a stream is reported once, then nothing follows. -/
example : (run (start 10 5 5) [.write 0 [1, 2, 3] false, .read 1, .reset 7 5, .read 9, .read 9]).2
    = [.wrote 0 [1, 2, 3] false 3 0, .got [1] false, .resetOk 7 5 2 4, .readErr (.streamReset 7),
       .readErr .done] := by decide

end Verif.C14
