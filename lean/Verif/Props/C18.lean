import Verif.Stream.SendHist

/-! # C18 — lost stream data is sent again -/

namespace Verif.C18
open Verif Stream SendBuf

/-- **C18.** After any history of a stream that was not abandoned, let a frame
`(off, len)` be reported lost. If some byte of it is not acknowledged then the stream
is flushable, and sending frames, each with room for at least one byte, sends every
unacknowledged byte of the lost frame again — after at most as many frames as bytes
were written. -/
theorem lost_sent_again (m0 : Nat) (hm : m0 < 2 ^ 62) (ops : List SOp) (hop : ∀ op ∈ ops, op.Ok)
    (i off len : Nat) (hlive : ¬ wasCut (run (start m0) ops).2)
    (hlost : (step (run (start m0) ops).1 (.lost i)).2 = .lost off len) (o : Nat)
    (ho : off ≤ o ∧ o < off + len) (hna : ¬ ackedByte (run (start m0) ops).2 o) :
    (step (run (start m0) ops).1 (.lost i)).1.s.isFlushable = true ∧
    ∀ ns : List Nat, (∀ n ∈ ns, 0 < n) → (written (run (start m0) ops).2).length ≤ ns.length →
      sentByte (run (step (run (start m0) ops).1 (.lost i)).1 (ns.map .emit)).2 o := by
  have h := run_hinv hm hop
  generalize run (start m0) ops = x at *
  obtain ⟨st, es⟩ := x
  simp only at *
  have key : HInv m0 (step st (.lost i)).1 (es ++ [.lost off len]) ∧
      Pend (step st (.lost i)).1.s.data o := by
    simp only [step] at hlost ⊢
    cases hf : st.frames[i]? with
    | none => simp [hf] at hlost
    | some f =>
      obtain ⟨x, y⟩ := f
      simp only [hf] at hlost ⊢
      by_cases hst : st.s.isStopped = true
      · rw [if_pos hst] at hlost; simp at hlost
      · rw [if_neg hst] at hlost ⊢
        obtain ⟨s', n, e, R⟩ := retransmit_spec h.inv x y
        simp only [e, SEv.lost.injEq] at hlost ⊢
        obtain ⟨rfl, rfl⟩ := hlost
        refine ⟨h.losing R, R.again o ho.1 ho.2 ?_ (by rw [h.mem hlive]; exact hna)⟩
        have := (h.frames (x, y) (List.mem_of_getElem? hf)).1
        have := h.inv.emit
        simp only at *
        omega
  obtain ⟨hk, hp⟩ := key
  refine ⟨hk.inv.flushable.mpr ⟨o, hp⟩, fun ns hn hl => ?_⟩
  refine emits_all hk ?_ ns hn ?_ hp
  · rw [wasCut_append]; simpa using hlive
  · simpa [written] using hl

/-- Nothing is ever stranded: at any time, on a stream that was not abandoned, every
byte the application has written is acknowledged, or was sent in a frame not reported
lost since, or will be sent — then the stream is flushable and sending suffices. -/
theorem never_stranded (m0 : Nat) (hm : m0 < 2 ^ 62) (ops : List SOp) (hop : ∀ op ∈ ops, op.Ok)
    (hlive : ¬ wasCut (run (start m0) ops).2) (o : Nat)
    (ho : o < (written (run (start m0) ops).2).length) :
    ackedByte (run (start m0) ops).2 o ∨ outstanding (run (start m0) ops).2 o ∨
    ((run (start m0) ops).1.s.isFlushable = true ∧
      ∀ ns : List Nat, (∀ n ∈ ns, 0 < n) → (written (run (start m0) ops).2).length ≤ ns.length →
        sentByte (run (run (start m0) ops).1 (ns.map .emit)).2 o) := by
  have h := run_hinv hm hop
  have hs : (run (start m0) ops).1.s.off = (written (run (start m0) ops).2).length := by
    rcases h.inv.state with hs | hs
    · exact hs.2.2
    · exact absurd (h.cut.mpr hs.2.2.2.2.2.1) hlive
  rcases h.safe hlive o (by omega) with h1 | h1 | h1
  · exact .inl h1
  · exact .inr (.inr ⟨h.inv.flushable.mpr ⟨o, h1⟩, fun ns hn hl => emits_all h hlive ns hn hl h1⟩)
  · exact .inr (.inl h1)

/-- Two of three frames are lost, the one in the middle arrives; both lost parts are
sent again. -/
example : (run (start 100) [.write [1, 2, 3, 4, 5] false, .emit 2, .emit 1, .emit 9, .lost 0,
      .lost 2, .ack 1, .emit 1, .emit 1, .emit 1, .emit 1]).2.drop 7 =
    [.sent 0 [1] false, .sent 1 [2] false, .sent 3 [4] false, .sent 4 [5] false] := by decide

end Verif.C18
