import Verif.Stream.SendHist

/-! # C59 — the final size reported when a stream is abandoned, and what follows -/

namespace Verif.C59
open Verif Stream SendBuf

theorem finAcc_cut {a : List SEv} {F u : Nat} : finalSize (a ++ [.cut F u]) = some F := by
  simp [finalSize, List.foldl_append]

/-- Facts about a step that abandons the stream. -/
theorem step_cut {m0 : Nat} {st : SSt} {es : List SEv} (h : HInv m0 st es) {op : SOp} {F u : Nat}
    (he : (step st op).2 = .cut F u) :
    F = st.s.emitOff ∧ u = st.s.off - st.s.emitOff ∧
    ((op = .shutdown ∧ (step st op).1.s.error = st.s.error ∧ st.s.shutdown = false) ∨
      (∃ c, op = .stop c ∧ (step st op).1.s.error = some c ∧ st.s.error = none)) := by
  cases op with
  | stop c =>
    rcases stop_spec h.inv c with ⟨-, e⟩ | ⟨hn, s', e, C, h2, -⟩
    · simp [step, e] at he
    · simp only [step, e] at he ⊢
      simp only [SEv.cut.injEq] at he
      exact ⟨he.1.symm, he.2.symm, .inr ⟨c, rfl, h2, hn⟩⟩
  | shutdown =>
    rcases shutdown_spec h.inv with ⟨-, e⟩ | ⟨hn, s', e, C, -, h2⟩
    · simp [step, e] at he
    · simp only [step, e] at he ⊢
      simp only [SEv.cut.injEq] at he
      exact ⟨he.1.symm, he.2.symm, .inl ⟨trivial, h2, hn⟩⟩
  | write d f => simp only [step] at he; split at he <;> simp at he
  | append d cap f => simp only [step] at he; split at he <;> simp at he
  | emit n =>
    simp only [step] at he
    split at he
    · simp at he
    · split at he <;> simp at he
  | ack i =>
    simp only [step] at he
    split at he
    · simp at he
    · split at he <;> simp at he
  | lost i =>
    simp only [step] at he
    split at he
    · simp at he
    · split at he
      · simp at he
      · split at he <;> simp at he
  | maxData m => simp [step] at he

/-- **C59**, first half: whenever a stream is abandoned, the final size reported to the
peer is exactly one past the highest offset ever sent (so it never contradicts what
the peer received); if the stream was not abandoned before, the amount given back to
the connection is exactly the rest of what was written. -/
theorem reported_size (m0 : Nat) (hm : m0 < 2 ^ 62) (ops : List SOp) (hop : ∀ op ∈ ops, op.Ok)
    (a b : List SEv) (F u : Nat) (hes : (run (start m0) ops).2 = a ++ .cut F u :: b) :
    F = sentMax a ∧ (¬ wasCut a → F + u = (written a).length) ∧ (wasCut a → u = 0) := by
  obtain ⟨o1, op, o2, h1, h2, h3⟩ := run_split hes
  have h := run_hinv hm (ops := o1) (fun o ho => hop o (by simp [h1, ho]))
  rw [h2] at h
  obtain ⟨rfl, rfl, -⟩ := step_cut h h3
  refine ⟨h.emit, ?_, ?_⟩
  · intro hn
    rcases h.inv.state with hs | hs
    · have := h.inv.emit; omega
    · exact absurd (h.cut.mpr hs.2.2.2.2.2.1) hn
  · intro hy
    rcases h.inv.state with hs | hs
    · have := h.cut.mp hy
      simp [hs.1, hs.2.1] at this
    · have := hs.2.2.1; omega

/-- After abandonment no new data reaches the peer: a frame sent later is empty. -/
theorem after_cut_empty (m0 : Nat) (hm : m0 < 2 ^ 62) (ops : List SOp) (hop : ∀ op ∈ ops, op.Ok)
    (a b : List SEv) (off : Nat) (bs : Bytes) (fin : Bool)
    (hes : (run (start m0) ops).2 = a ++ .sent off bs fin :: b) (hc : wasCut a) : bs = [] := by
  obtain ⟨o1, op, o2, h1, h2, h3⟩ := run_split hes
  have h := run_hinv hm (ops := o1) (fun o ho => hop o (by simp [h1, ho]))
  rw [h2] at h
  obtain ⟨n, s', -, rfl, -, S, -⟩ := step_sent h h3
  generalize (run (start m0) o1).1 = st at *
  rcases h.inv.state with hs | hs
  · have := h.cut.mp hc
    simp [hs.1, hs.2.1] at this
  · have hb := S.bound
    have ho : st.s.offFront = st.s.off := by simp [offFront, hs.1, firstUnsent]
    have : bs.length = 0 := by omega
    exact List.eq_nil_of_length_eq_zero this

/-- **C59**, second half, is false for streams the application shut down: such a stream
stays in the queue of streams to be flushed, is skipped there only if the *peer*
stopped it, and an (empty) STREAM frame with FIN is sent after its RESET_STREAM. -/
theorem frame_after_shutdown :
    ∃ ops : List SOp, (∀ op ∈ ops, op.Ok) ∧
      ∃ a b off bs, (run (start 10) ops).2 = a ++ .sent off bs true :: b ∧ wasCut a := by
  refine ⟨[.write [1, 2, 3] false, .emit 1, .shutdown, .emit 5], ?_,
    [.offered [1, 2, 3] false 3, .sent 0 [1] false, .cut 1 2], [], 1, [], by decide, 1, 2, by simp⟩
  intro op h
  simp only [List.mem_cons, List.not_mem_nil, or_false] at h
  rcases h with rfl | rfl | rfl | rfl <;> trivial

theorem error_stays {m0 : Nat} {st : SSt} {es : List SEv} (h : HInv m0 st es)
    (hs : st.s.error ≠ none) (op : SOp) :
    (step st op).1.s.error ≠ none ∧ ∀ off bs fin, (step st op).2 ≠ .sent off bs fin := by
  have hst : st.s.isStopped = true := by simpa [isStopped, Option.isSome_iff_ne_none] using hs
  refine ⟨?_, ?_⟩
  · cases op with
    | write d f =>
      simp only [step]
      rcases write_spec h.inv d f with ⟨s', n, e, T⟩ | ⟨er, e, -, -⟩
      · rw [e]; have := T.fields; simp only; rw [this]; exact hs
      · rw [e]; cases er <;> exact hs
    | append d cap f =>
      simp only [step]
      rcases appendBuf_spec h.inv d cap (if cap < d.length then false else f) with
        ⟨s', n, r, e, T, -⟩ | ⟨er, e, -, -⟩
      · rw [e]; have := T.fields; simp only; rw [this]; exact hs
      · rw [e]; cases er <;> exact hs
    | emit n => simp [step, hst, hs]
    | ack i =>
      simp only [step]
      cases hf : st.frames[i]? with
      | none => exact hs
      | some f =>
        obtain ⟨off, len⟩ := f
        have hb := (h.frames (off, len) (List.mem_of_getElem? hf)).1
        obtain ⟨s', n, e, A⟩ := ackAndDrop_spec h.inv hb
        simp only [e]; have := A.fields; rw [this]; exact hs
    | lost i =>
      simp only [step, hst, if_true]
      split <;> exact hs
    | maxData m => exact hs
    | stop c =>
      rcases stop_spec h.inv c with ⟨-, e⟩ | ⟨hn, -⟩
      · simp [step, e, hs]
      · exact absurd hn hs
    | shutdown =>
      rcases shutdown_spec h.inv with ⟨-, e⟩ | ⟨-, s', e, -, -, h2⟩
      · simp [step, e, hs]
      · simp only [step, e]; rw [h2]; exact hs
  · intro off bs fin he
    obtain ⟨n, s', -, -, h1, -⟩ := step_sent h he
    exact hs h1

theorem stopped_silent {m0 : Nat} {st : SSt} {es : List SEv} (h : HInv m0 st es)
    (hs : st.s.error ≠ none) (ops : List SOp) (hop : ∀ op ∈ ops, op.Ok) :
    ∀ off bs fin, SEv.sent off bs fin ∉ (run st ops).2 := by
  induction ops generalizing st es with
  | nil => simp [run]
  | cons op t ih =>
    intro off bs fin
    have h1 := error_stays h hs op
    have := ih (step_hinv h (hop op (by simp))) h1.1 (fun o ho => hop o (by simp [ho])) off bs fin
    simp only [run, List.mem_cons, not_or]
    exact ⟨fun hh => h1.2 off bs fin hh.symm, this⟩

/-- **C59**, second half, partial. After a STOP_SENDING by the peer no STREAM frame is
sent at all. Missing: streams shut down by the application, for which the claim is
false (`frame_after_shutdown`); there later frames are at least empty
(`after_cut_empty`) and end at the reported final size (`C16.sent_is_written`). -/
theorem silent_after_stop_partial (m0 : Nat) (hm : m0 < 2 ^ 62) (o1 o2 : List SOp) (c : Nat)
    (hop : ∀ op ∈ o1 ++ .stop c :: o2, op.Ok) (off : Nat) (bs : Bytes) (fin : Bool) :
    SEv.sent off bs fin ∉ (run (run (start m0) (o1 ++ [.stop c])).1 o2).2 := by
  have h0 := run_hinv hm (ops := o1) (fun o ho => hop o (by simp [ho]))
  have h := run_hinv hm (ops := o1 ++ [.stop c]) (fun o ho => hop o (by
    simp only [List.mem_append, List.mem_singleton] at ho
    simp only [List.mem_append, List.mem_cons]
    rcases ho with ho | ho
    · exact .inl ho
    · exact .inr (.inl ho)))
  refine stopped_silent h ?_ o2 (fun o ho => hop o (by simp [ho])) off bs fin
  rw [run_append]
  simp only [run]
  rcases stop_spec h0.inv c with ⟨h1, e⟩ | ⟨-, s', e, -, h2, -⟩
  · simpa [step, e] using h1
  · simp only [step, e]; rw [h2]; simp

/-- Five bytes are written, two sent; the peer stops the stream: final size 2, three
bytes given back, and nothing more is sent. -/
example : (run (start 9) [.write [1, 2, 3, 4, 5] true, .emit 2, .stop 7, .emit 5, .lost 0, .emit 5]).2 =
    [.offered [1, 2, 3, 4, 5] true 5, .sent 0 [1, 2] false, .cut 2 3, .idle, .idle, .idle] := by decide

end Verif.C59
