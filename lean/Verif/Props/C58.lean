import Verif.Stream.SendHist

/-! # C58 — a finished stream is complete only once its FIN was acknowledged -/

namespace Verif.C58
open Verif Stream SendBuf

/-- Some acknowledged frame `(off, len)` was sent with the FIN flag. -/
def finAcked (es : List SEv) : Prop :=
  ∃ off bs, SEv.sent off bs true ∈ es ∧ SEv.acked off bs.length ∈ es

/-- **C58 is false in general.** The application writes a byte, which is sent; then it
finishes the stream with an empty write; then the byte is acknowledged, before the
empty frame with the FIN is sent. The stream reports completion (and is collected by
the connection, which drops what is queued for it), although no FIN was ever sent. -/
theorem complete_without_fin :
    ∃ ops : List SOp, (∀ op ∈ ops, op.Ok) ∧ ¬ wasCut (run (start 10) ops).2 ∧
      (run (start 10) ops).1.s.isComplete = true ∧
      ∀ off bs fin, SEv.sent off bs fin ∈ (run (start 10) ops).2 → fin = false := by
  refine ⟨[.write [1] false, .emit 5, .write [] true, .ack 0], ?_, ?_, by decide, ?_⟩
  · intro op h
    simp only [List.mem_cons, List.not_mem_nil, or_false] at h
    rcases h with rfl | rfl | rfl | rfl <;> trivial
  · have : (run (start 10) [.write [1] false, .emit 5, .write [] true, .ack 0]).2 =
        [.offered [1] false 1, .sent 0 [1] false, .offered [] true 0, .acked 0 1] := by decide
    rw [this]; simp [wasCut]
  · have : (run (start 10) [.write [1] false, .emit 5, .write [] true, .ack 0]).2 =
        [.offered [1] false 1, .sent 0 [1] false, .offered [] true 0, .acked 0 1] := by decide
    rw [this]
    intro off bs fin h
    simp at h
    exact h.2.2

theorem finAcc_known {a : List SEv} {F : Nat} (h : finalSize a = some F) {b : List SEv}
    (hc : ¬ wasCut b) : finalSize (a ++ b) = some F := by
  induction b generalizing a with
  | nil => simpa using h
  | cons e t ih =>
    have hc' : ¬ wasCut t := by
      rintro ⟨x, y, hxy⟩
      exact hc ⟨x, y, by simp [hxy]⟩
    have := ih (a := a ++ [e]) ?_ hc'
    · simpa using this
    · cases e with
      | cut x y => exact absurd ⟨x, y, by simp⟩ hc
      | offered d fin n =>
        simp only [finalSize, List.foldl_append, List.foldl_cons, List.foldl_nil] at h ⊢
        rw [h]; simp
      | _ => simpa [finalSize, List.foldl_append] using h

/-- **C58, partial.** If the write that finished the stream brought at least one byte,
then the stream, unless abandoned, is complete only if a frame with FIN was sent and
acknowledged. Missing: streams finished by an empty write, for which the claim is
false (`complete_without_fin`). -/
theorem complete_fin_acked_partial (m0 : Nat) (hm : m0 < 2 ^ 62) (ops : List SOp)
    (hop : ∀ op ∈ ops, op.Ok) (pre post : List SEv) (d : Bytes) (hd : d ≠ [])
    (hes : (run (start m0) ops).2 = pre ++ .offered d true d.length :: post)
    (hlive : ¬ wasCut (run (start m0) ops).2)
    (hcomp : (run (start m0) ops).1.s.isComplete = true) :
    finAcked (run (start m0) ops).2 := by
  have h := run_hinv hm hop
  have hlen : 0 < d.length := by
    cases d with
    | nil => exact absurd rfl hd
    | cons => simp
  obtain ⟨F, h1, h2, h3⟩ := (complete_spec h.inv).mp hcomp
  have hs : (run (start m0) ops).1.s.off = (written (run (start m0) ops).2).length := by
    rcases h.inv.state with hs | hs
    · exact hs.2.2
    · exact absurd (h.cut.mpr hs.2.2.2.2.2.1) hlive
  have hF := h.inv.fin F h1
  have hw : (written (run (start m0) ops).2).length =
      (written pre).length + d.length + (written post).length := by
    rw [hes]; simp [written, Nat.add_assoc]
  obtain ⟨off, len, ha, hb⟩ := (h.mem hlive (F - 1)).mp (h3 (F - 1) (by omega))
  obtain ⟨bs, fin, hsent, rfl⟩ := acked_sent hm hop ha
  obtain ⟨a, b, hab⟩ := List.append_of_mem hsent
  obtain ⟨o1, op, o2, g1, g2, g3⟩ := run_split hab
  have hh := run_hinv hm (ops := o1) (fun o ho => hop o (by simp [g1, ho]))
  rw [g2] at hh
  obtain ⟨n, s', -, hoff, -, S, -⟩ := step_sent hh g3
  have hbound := S.bound
  have hwl := hh.inv.wlen
  -- the frame was sent when everything had been written
  have hca : ¬ wasCut a := by
    rintro ⟨x, y, hxy⟩
    exact hlive ⟨x, y, by rw [hab]; simp [hxy]⟩
  have hfa : finalSize a = some F := by
    have hwa : F ≤ (written a).length := by omega
    -- hence the finishing write comes before it
    rw [hes] at hab
    rcases List.append_eq_append_iff.mp hab with ⟨c, hc1, hc2⟩ | ⟨c, hc1, hc2⟩
    · cases c with
      | nil => simp at hc2
      | cons e c =>
        simp only [List.cons_append, List.cons.injEq] at hc2
        have hfull : finalSize (a ++ .sent off bs fin :: b) = some F := by
          rw [← hab, ← hes, finalSize_eq, h.acc, h1]
        cases hfa : finalSize a with
        | none =>
          exfalso
          -- the finishing write sets the final size
          have : (finAcc a).2 ≠ none := by
            rw [hc1, ← hc2.1]
            have key : ∀ (x y : List SEv), (finAcc (x ++ .offered d true d.length :: y)).2 ≠ none := by
              intro x y
              have h0 : (finalSize (x ++ [.offered d true d.length])).isSome := by
                simp only [finalSize, List.foldl_append, List.foldl_cons, List.foldl_nil]
                simp
              have key2 : ∀ (y : List SEv) (z : List SEv), (finalSize z).isSome →
                  (finalSize (z ++ y)).isSome := by
                intro y
                induction y with
                | nil => intro z hz; simpa using hz
                | cons e t ih =>
                  intro z hz
                  have := ih (z ++ [e]) ?_
                  · simpa using this
                  · simp only [finalSize, List.foldl_append, List.foldl_cons, List.foldl_nil] at hz ⊢
                    cases e with
                    | offered d fin n =>
                      simp only
                      split
                      · simp
                      · exact hz
                    | cut => simp
                    | _ => exact hz
              have := key2 y _ h0
              rw [finalSize_eq] at this
              intro hn
              simp at this
              rw [hn] at this
              simp at this
            exact key pre c
          rw [← finalSize_eq] at this
          exact this hfa
        | some F' =>
          have hcb : ¬ wasCut (SEv.sent off bs fin :: b) := by
            rintro ⟨x, y, hxy⟩
            exact hlive ⟨x, y, by rw [hes, hab]; simp only [List.mem_append]; exact .inr hxy⟩
          rw [finAcc_known hfa hcb] at hfull
          exact hfull
    · exfalso
      have : written pre = written a ++ written c := by rw [hc1]; simp
      have : (written pre).length = (written a).length + (written c).length := by rw [this]; simp
      omega
  have hfin : fin = true := by
    rw [finalSize_eq, hh.acc] at hfa
    simp only at hfa
    have := hh.inv.fin F hfa
    rw [S.finFlag, hfa]
    simp only [beq_iff_eq, Option.some.injEq]
    omega
  subst hfin
  exact ⟨off, bs, hsent, ha⟩

/-- The usual case: the last write is not empty, and completion is reported with the
acknowledgement of the frame with FIN. -/
example : (run (start 9) [.write [1] false, .emit 1, .write [2] true, .emit 1, .ack 0]).1.s.isComplete
      = false ∧
    (run (start 9) [.write [1] false, .emit 1, .write [2] true, .emit 1, .ack 0, .ack 1]).2 =
      [.offered [1] false 1, .sent 0 [1] false, .offered [2] true 1, .sent 1 [2] true,
       .acked 0 1, .acked 1 1] := by decide

end Verif.C58
