import Verif.Stream.RecvHist

/-! # C57 — the reported readable length is what a read returns -/

namespace Verif.C57
open Verif Stream RecvBuf

theorem readableLenLoop_eq (maxLen : Nat) (D : List Entry) (off c : Nat) (hc : c < maxLen)
    (h : DInv off D) :
    readableLenLoop maxLen D c off = c + (emitLoop (maxLen - c) off D).1.length := by
  induction D generalizing off c with
  | nil => simp [readableLenLoop, emitLoop]
  | cons e t ih =>
    obtain ⟨k, b⟩ := e
    rw [dinv_cons] at h
    obtain ⟨⟨h1, h2, h3⟩, h4, h5⟩ := h
    simp only at h1 h2 h3 h4
    have hge := maxOff_ge b
    have hlen : b.maxOff = b.off + b.len := rfl
    have hbl := RangeBuf.bytes_length h2
    simp only [readableLenLoop, emitLoop]
    by_cases ho : b.off = off
    · have c1 : ¬ (b.off ≠ off) := by simp [ho]
      have c2 : maxLen - c > 0 ∧ b.off = off := ⟨by omega, ho⟩
      rw [if_neg c1, if_pos c2]
      by_cases hn : maxLen - c < b.len
      · have e1 : min (c + b.len) maxLen = maxLen := by omega
        have e2 : min b.len (maxLen - c) = maxLen - c := by omega
        simp only [e1, e2, if_true, if_pos hn, List.length_take, hbl]
        omega
      · have e2 : min b.len (maxLen - c) = b.len := by omega
        have e1 : min (c + b.len) maxLen = c + b.len := by omega
        simp only [e1, e2, Nat.lt_irrefl, if_false, List.length_append, List.length_take, hbl]
        have hD : DInv (off + b.len) t := ⟨fun x hx => by
          have := h5.1 x hx
          have g := h4 x hx
          refine ⟨this.1, this.2.1, ?_⟩
          omega, h5.2⟩
        by_cases hm : c + b.len = maxLen
        · rw [if_pos hm]
          have : maxLen - c - b.len = 0 := by omega
          rw [this]
          have hz := (emitLoop_spec 0 (off + b.len) t hD _ _ _ rfl).2.1
          omega
        · rw [if_neg hm, hlen, ho, ih (off + b.len) (c + b.len) (by omega) hD]
          have : maxLen - (c + b.len) = maxLen - c - b.len := by omega
          rw [this]; omega
    · have c2 : ¬ (maxLen - c > 0 ∧ b.off = off) := fun h => ho h.2
      rw [if_pos ho, if_neg c2]
      simp

/-- The number of bytes obtained by a read outcome. -/
def obtained : REv → Nat
  | .got bs _ => bs.length
  | _ => 0

/-- **C57.** In every history, the readable length reported for a stream equals the
number of bytes a read of at most that many bytes returns. -/
theorem readable_len_exact (m w mw : Nat) (ops : List ROp) (cap : Nat)
    (hfl : .resetRejected .flowControl ∉ (run (start m w mw) ops).2) :
    (run (start m w mw) ops).1.r.readableLen cap =
      obtained (step (run (start m w mw) ops).1 (.read cap)).2 := by
  rcases (run_hinv m w mw ops).2 with ⟨h, -⟩ | h
  rotate_left
  · exact absurd h.seen hfl
  generalize run (start m w mw) ops = x at *
  obtain ⟨s, es⟩ := x
  simp only at *
  have hlen : s.r.readableLen cap = (emitLoop cap s.r.off s.r.data).1.length := by
    simp only [readableLen]
    by_cases hc : cap = 0
    · subst hc
      have hz := (emitLoop_spec 0 s.r.off s.r.data h.inv.d _ _ _ rfl).2.1
      have : readableLenLoop 0 s.r.data 0 s.r.off = 0 := by
        cases s.r.data with
        | nil => rfl
        | cons e t => obtain ⟨k, b⟩ := e; simp only [readableLenLoop]; split <;> simp
      omega
    · rw [readableLenLoop_eq cap _ _ 0 (by omega) h.inv.d]; simp
  rw [hlen]
  by_cases hrd : s.r.ready = true
  · cases he : s.r.error with
    | some e =>
      have hem := (h.inv.err (by simp [he])).2
      simp only [step, emit, hrd, he]
      simp only [Bool.not_true, Bool.false_eq_true, if_false, obtained]
      -- only empty markers are left
      have : ∀ (D : List Entry) (off : Nat), DInv off D → (∀ e ∈ D, e.2.len = 0) → (emitLoop cap off D).1.length = 0 := by
        intro D off hD hz
        by_cases h0 : (emitLoop cap off D).1.length = 0
        · exact h0
        · exfalso
          have g := (emitLoop_spec cap off D hD _ _ _ rfl).2.2.1 0 (by omega)
          rw [List.getElem?_eq_getElem (by omega)] at g
          obtain ⟨x, hx, hb⟩ := (lookup_iff hD _ _).mp g.symm
          have g1 := RangeBuf.byteAt_lt (hD.1 x hx).2.1 hb
          have g2 := hz x hx
          rw [len_zero_iff] at g2
          omega
      exact this _ _ h.inv.d hem
    | none =>
      rcases emit_spec h.inv cap with ⟨hc, -⟩ | ⟨-, e, he', -⟩ | ⟨-, out, fin, r', hw, hR⟩
      · simp [hrd] at hc
      · simp [he] at he'
      · obtain ⟨af, haf, -⟩ := almostFull_of hR.inv
        have hout : out = (emitLoop cap s.r.off s.r.data).1 := by
          simp only [emit, hrd, he, Bool.not_true, Bool.false_eq_true, if_false, Prod.mk.injEq, Except.ok.injEq] at hw
          exact hw.1.1.symm
        simp only [step, hw, haf, obtained, hout]
  · have hrd' : s.r.ready = false := by simpa using hrd
    have hnl : lookup s.r.data s.r.off = none := by
      cases hl : lookup s.r.data s.r.off with
      | none => rfl
      | some x => exact absurd ((ready_iff h.inv).mpr (.inl (by simp [hl]))) hrd
    simp only [step, emit, hrd', Bool.not_false, if_true, obtained]
    by_cases h0 : (emitLoop cap s.r.off s.r.data).1.length = 0
    · exact h0
    · exfalso
      have g := (emitLoop_spec cap s.r.off s.r.data h.inv.d _ _ _ rfl).2.2.1 0 (by omega)
      rw [List.getElem?_eq_getElem (by omega)] at g
      simp only [Nat.add_zero, hnl] at g
      simp at g

/-- Two adjacent chunks, a gap, and a limit in the middle of the second chunk. -/
example : let s := (run (start 100 50 50) [.write 0 [1, 2] false, .write 2 [3, 4] false, .write 9 [5] false]).1
    s.r.readableLen 10 = 4 ∧ s.r.readableLen 3 = 3 := by decide

end Verif.C57
