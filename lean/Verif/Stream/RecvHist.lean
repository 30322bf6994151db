import Verif.Stream.RecvSpec

/-! What holds along every history of a receiving stream. -/

namespace Verif.Stream.RecvBuf
open Verif

/-- An empty STREAM frame without FIN beyond everything received so far, for which
the connection nevertheless charged something. -/
def REv.stray : REv → Bool
  | .wrote _ [] false charge _ => charge != 0
  | _ => false

/-- Relation between the state and the events so far (stream not yet dead). -/
structure HInv (m0 : Nat) (s : RSt) (es : List REv) : Prop where
  inv : RInv s.r
  finOff : s.r.finOff = finalSize es
  len : s.r.len = highest es
  lim : s.r.maxData = limit m0 es
  err : s.r.error = wasReset es
  drn : s.r.drain = wasShut es
  pre : ∀ i, i < (delivered es).length → (delivered es)[i]? = firstByte es i
  offge : (delivered es).length ≤ s.r.off
  off : wasReset es = none → wasShut es = false → s.r.off = (delivered es).length
  look : wasReset es = none → wasShut es = false → ∀ o, s.r.off ≤ o →
    lookup s.r.data o = firstByte es o
  ret : (∀ e ∈ es, e.stray = false) → returned es = s.r.off ∧ charged es = s.r.len
  chg : s.r.len ≤ charged es
  win : s.r.flowControl.window ≤ s.r.flowControl.maxWindow
  pend : s.pending = true → s.r.maxData ≤ s.r.flowControl.maxDataNext
  last : s.r.flowControl.lastUpdate.isSome → s.r.maxData ≤ s.r.flowControl.maxDataNext

theorem hinv_start (m w mw : Nat) : HInv m (start m w mw) [] := by
  constructor <;> simp [start, rinv_new, finalSize, highest, limit, wasReset, wasShut, delivered, firstByte,
    returned, charged, lookup] <;> simp [new, FlowControl.new, maxData]
  omega

theorem byteAt_mk' (data : Bytes) (off : Nat) (fin : Bool) (o : Nat) :
    (RangeBuf.mk' data off fin).byteAt o = if off ≤ o ∧ o < off + data.length then data[o - off]? else none := by
  simp only [RangeBuf.byteAt, RangeBuf.off_mk', RangeBuf.bytes_mk']
  by_cases h : off ≤ o
  · by_cases h2 : o < off + data.length
    · simp [h, h2]
    · simp [h, h2]; omega
  · simp [h]

theorem almostFull_of {r : RecvBuf} (hI : RInv r) :
    ∃ b, r.almostFull = some b ∧ (b = true → r.maxData ≤ r.flowControl.maxDataNext) := by
  have h1 := hI.cons
  have h2 := hI.offlen
  have h3 := hI.lim
  simp only [maxData] at h3
  simp only [almostFull, FlowControl.shouldUpdateMaxData, maxData, FlowControl.maxDataNext]
  split
  · rw [if_neg (by omega)]
    refine ⟨_, rfl, ?_⟩
    simp only [decide_eq_true_eq]
    omega
  · exact ⟨_, rfl, by simp⟩

attribute [local simp] finalSize_append highest_append limit_append wasReset_append wasShut_append
  delivered_append firstByte_append returned_append charged_append finalSize REv.final highest REv.reach
  limit wasReset wasShut delivered firstByte returned charged

/-- Events that leave no trace. -/
theorem HInv.neutral {m0 : Nat} {s : RSt} {es : List REv} (h : HInv m0 s es) {e : REv}
    (he : e = .idle ∨ (∃ x, e = .readErr x) ∨ (∃ x, e = .rejected x) ∨ ∃ x, e = .resetRejected x) : HInv m0 s (es ++ [e]) := by
  obtain ⟨hI, h1, h2, h3, h4, h5, h6, h7, h8, h9, h10, h10', h11, h12, h13⟩ := h
  rcases he with rfl | ⟨x, rfl⟩ | ⟨x, rfl⟩ | ⟨x, rfl⟩ <;>
  exact ⟨hI, by simpa using h1, by simpa using h2, by simpa using h3, by simpa using h4, by simpa using h5,
      by simpa using h6, by simpa using h7, by simpa using h8, by simpa using h9,
      fun hs => by simpa using h10 (fun e he => hs e (by simp [he])), by simpa using h10', h11, h12, h13⟩

/-- The peer reset the stream beyond its limit: the connection is closing and the
stream's state is inconsistent, but still yields no data. -/
structure Broken (s : RSt) (es : List REv) : Prop where
  dead : s.dead = true
  data : s.r.data = []
  pre : ∀ i, i < (delivered es).length → (delivered es)[i]? = firstByte es i
  seen : .resetRejected .flowControl ∈ es
  hi : ∀ F, finalSize es = some F → highest es ≤ F

/-- A rejected frame only closes the connection. -/
theorem HInv.dead {m0 : Nat} {s : RSt} {es : List REv} (h : HInv m0 s es) : HInv m0 { s with dead := true } es :=
  ⟨h.inv, h.finOff, h.len, h.lim, h.err, h.drn, h.pre, h.offge, h.off, h.look, h.ret, h.chg, h.win, h.pend, h.last⟩

/-- While the connection is closing, neither frames nor window updates are handled. -/
theorem step_dead {s : RSt} (h : s.dead = true) (op : ROp) :
    (∃ cap, op = .read cap) ∨ op = .shutdown ∨ step s op = (s, .idle) := by
  cases op <;> simp [step, h]

/-- No step panics, and the relation is kept. -/
theorem step_hinv {m0 : Nat} {s : RSt} {es : List REv} (h : HInv m0 s es) (op : ROp) :
    (step s op).2 ≠ .panic ∧
    (HInv m0 (step s op).1 (es ++ [(step s op).2]) ∨
      Broken (step s op).1 (es ++ [(step s op).2])) ∧
    ((step s op).1.dead = true ↔ s.dead = true ∨ (step s op).2.isReject = true) := by
  by_cases hd0 : s.dead = true ∧ step s op = (s, .idle)
  · obtain ⟨hd, hs⟩ := hd0
    rw [hs]
    exact ⟨by simp, .inl (h.neutral (.inl rfl)), by simp [hd]⟩
  have hH := h
  obtain ⟨hI, h1, h2, h3, h4, h5, h6, h7, h8, h9, h10, h10', h11, h12, h13⟩ := h
  cases op with
  | write off data fin =>
    have hd : s.dead = false := by
      cases hx : s.dead with
      | false => rfl
      | true => exact absurd ⟨hx, by simp [step, hx]⟩ hd0
    clear hd0
    have hmo : (RangeBuf.mk' data off fin).maxOff = off + data.length := by simp [RangeBuf.maxOff]
    rcases write_spec hI (RangeBuf.wf_mk' data off fin) (by rfl) with ⟨-, hw⟩ | ⟨-, -, hw⟩ | ⟨-, hnb, r', hw, hW⟩
    · simp only [step, hd, Bool.false_eq_true, if_false, hw]
      exact ⟨by simp, .inl (hH.dead.neutral (by simp)), by simp [REv.isReject]⟩
    · simp only [step, hd, Bool.false_eq_true, if_false, hw]
      exact ⟨by simp, .inl (hH.dead.neutral (by simp)), by simp [REv.isReject]⟩
    · have hstep : step s (.write off data fin) = ({ s with r := r' },
          .wrote off data fin (off + data.length - s.r.len)
            (if s.r.drain then off + data.length - s.r.len else 0)) := by
        simp [step, hd, hw]
      rw [hstep]
      refine ⟨by simp, .inl ?_, by simp [REv.isReject]⟩
      have hWl := hW.len
      have hWo := hW.off
      have hWf := hW.finOff
      simp only [hmo, RangeBuf.len_mk', RangeBuf.fin_mk'] at hWl hWo hWf
      have hnil : data.length = 0 ↔ data = [] := List.length_eq_zero_iff
      have hdl : delivered [REv.wrote off data fin (off + data.length - s.r.len)
            (if s.r.drain then off + data.length - s.r.len else 0)] = [] := rfl
      refine ⟨hW.inv, ?_, ?_, ?_, ?_, ?_, ?_, ?_, ?_, ?_, ?_, ?_, ?_, ?_, ?_⟩
      · rw [hWf, finalSize_append, ← h1]
        cases fin with
        | false => simp [finalSize, REv.final]
        | true =>
          simp only [if_true, finalSize, REv.final, Option.or_none]
          cases hs : s.r.finOff with
          | none => simp
          | some F =>
            simp only [Option.some_or, Option.some.injEq]
            by_cases hc : off + data.length = F
            · exact hc
            · exact absurd (.inl ⟨F, hs, .inr ⟨rfl, by rw [hmo]; exact fun h => hc h.symm⟩⟩) hnb
      · rw [hWl, highest_append, ← h2]
        simp only [hnil, highest, REv.reach]
        split <;> omega
      · simp only [maxData, hW.fc, limit_append, ← h3, limit]
      · simp only [hW.error, h4, wasReset_append, wasReset, Option.or_none]
      · simp only [hW.drain, h5, wasShut_append, wasShut, Bool.or_false]
      · intro i hi
        rw [delivered_append, hdl, List.append_nil] at hi ⊢
        rw [firstByte_append, ← h6 i hi, List.getElem?_eq_getElem hi]; simp
      · rw [delivered_append, hdl, List.append_nil]
        have := hI.offlen
        simp only [hWo]
        split
        · rw [hWl]; split <;> omega
        · omega
      · intro e1 e2
        simp only [wasReset_append, wasReset, Option.or_none, wasShut_append, wasShut, Bool.or_false] at e1 e2
        rw [delivered_append, hdl, List.append_nil]
        simp only [hWo, h5, e2, Bool.false_eq_true, if_false]
        exact h8 e1 e2
      · intro e1 e2 o ho
        simp only [wasReset_append, wasReset, Option.or_none, wasShut_append, wasShut, Bool.or_false] at e1 e2
        simp only [hWo, h5, e2, Bool.false_eq_true, if_false] at ho
        simp only [hW.look (h5.trans e2) o ho, h9 e1 e2 o ho, firstByte_append, byteAt_mk', firstByte]
      · intro hs
        obtain ⟨g1, g2⟩ := h10 (fun e he => hs e (by simp [he]))
        have hst := hs _ (List.mem_append_right _ (List.mem_singleton.mpr rfl))
        have hch : off + data.length - s.r.len = r'.len - s.r.len := by
          rw [hWl]
          split
          · rename_i hc
            rw [hnil] at hc
            simp only [hc.1, hc.2, REv.stray, bne_eq_false_iff_eq] at hst
            simp only [hc.1]; omega
          · omega
        have hge : s.r.len ≤ r'.len := by rw [hWl]; split <;> omega
        simp only [returned_append, charged_append, returned, charged, g1, g2, hch]
        refine ⟨?_, by omega⟩
        rw [hWo]
        by_cases hdr : s.r.drain = true
        · have := (hI.drn hdr).2
          simp only [hdr, if_true]; omega
        · simp only [hdr, if_false]; rfl
      · simp only [charged_append, charged, hWl]
        split <;> omega
      · simp only [hW.fc]; exact h11
      · simp only [maxData, hW.fc]; exact h12
      · simp only [maxData, hW.fc]; exact h13
  | read cap =>
    rcases emit_spec hI cap with ⟨-, hw⟩ | ⟨-, e, he, hw, hinv⟩ | ⟨hrd, out, fin, r', hw, hR⟩
    · have hstep : step s (.read cap) = (s, .readErr .done) := by
        simp only [step, hw]
      rw [hstep]
      refine ⟨by simp, .inl ?_, by simp [REv.isReject]⟩
      exact hH.neutral (by simp)
    · have hstep : step s (.read cap) = ({ s with r := { s.r with data := [] } }, .readErr (.streamReset e)) := by
        simp [step, hw]
      rw [hstep]
      refine ⟨by simp, .inl ?_, by simp [REv.isReject]⟩
      have hne : wasReset es ≠ none := by rw [← h4, he]; simp
      have hn := hH.neutral (e := .readErr (.streamReset e)) (by simp)
      refine ⟨hinv, hn.finOff, hn.len, hn.lim, hn.err, hn.drn, hn.pre, hn.offge, ?_, ?_, hn.ret, hn.chg, hn.win,
        hn.pend, hn.last⟩
      · intro hc; simp at hc; exact absurd hc hne
      · intro hc; simp at hc; exact absurd hc hne
    · obtain ⟨af, haf, haf2⟩ := almostFull_of hR.inv
      have hstep : step s (.read cap) = ({ s with r := r', pending := s.pending || af }, .got out fin) := by
        simp [step, hw, haf]
      rw [hstep]
      refine ⟨by simp, .inl ?_, by simp [REv.isReject]⟩
      have hR0 : wasReset es = none := by rw [← h4]; exact hR.noerr
      -- nothing can be read from a stream that was shut down
      have hS0 : wasShut es = false := by
        rw [← h5]
        cases hdr : s.r.drain with
        | false => rfl
        | true => simp [ready, (hI.drn hdr).1] at hrd
      have e8 := h8 hR0 hS0
      have e9 := h9 hR0 hS0
      have hlen : r'.off = (delivered es).length + out.length := by rw [hR.off, e8]
      refine ⟨hR.inv, ?_, ?_, ?_, ?_, ?_, ?_, ?_, ?_, ?_, ?_, ?_, ?_, ?_, ?_⟩
      · simpa [hR.finOff] using h1
      · simpa [hR.len] using h2
      · simpa [maxData, hR.consumed, FlowControl.addConsumed] using h3
      · simpa [hR.error] using h4
      · simpa [hR.drain] using h5
      · intro i hi
        simp only [delivered_append, delivered, List.append_nil, List.length_append, firstByte_append, firstByte,
          Option.or_none] at hi ⊢
        by_cases hc : i < (delivered es).length
        · rw [List.getElem?_append_left hc]; exact h6 i hc
        · rw [List.getElem?_append_right (by omega), hR.bytes _ (by omega), e9 _ (by omega)]
          congr 1; omega
      · simp; omega
      · intro _ _; simp; omega
      · intro _ _ o ho
        simp only [hR.look o ho, e9 o (by have := hR.off; simp only at ho; omega), firstByte_append, firstByte,
          Option.or_none]
      · intro hs
        obtain ⟨g1, g2⟩ := h10 (fun e he => hs e (by simp [he]))
        simp only [returned_append, returned, charged_append, charged, hR.len, hR.off]
        omega
      · simp only [charged_append, charged, hR.len]; omega
      · simp only [hR.consumed, FlowControl.addConsumed]; exact h11
      · intro hp
        simp only [Bool.or_eq_true] at hp
        rcases hp with hp | hp
        · have := h12 hp
          simp only [maxData, hR.consumed, FlowControl.addConsumed, FlowControl.maxDataNext] at this ⊢; omega
        · exact haf2 hp
      · simp only [maxData, hR.consumed, FlowControl.addConsumed, FlowControl.maxDataNext] at h13 ⊢
        intro hp; have := h13 hp; omega
  | reset code F =>
    have hd : s.dead = false := by
      cases hx : s.dead with
      | false => rfl
      | true => exact absurd ⟨hx, by simp [step, hx]⟩ hd0
    clear hd0
    rcases reset_spec hI code F with ⟨-, hw⟩ | ⟨-, -, -, r', hw, hrd⟩ | ⟨hG, hlF, hFm, ret, r', hw, hR⟩
    · simp only [step, hd, Bool.false_eq_true, if_false, hw]
      exact ⟨by simp, .inl (hH.dead.neutral (by simp)), by simp [REv.isReject]⟩
    · simp only [step, hd, Bool.false_eq_true, if_false, hw]
      refine ⟨by simp, .inr ⟨rfl, hrd, by simpa using h6, by simp, ?_⟩, by simp [REv.isReject]⟩
      intro G hG
      have := hI.fin G (by rw [h1]; simpa using hG)
      simp; omega
    · have hstep : step s (.reset code F) = ({ s with r := r' }, .resetOk code F ret.maxDataDelta ret.consumed) := by
        simp [step, hd, hw]
      rw [hstep]
      refine ⟨by simp, .inl ?_, by simp [REv.isReject]⟩
      refine ⟨hR.inv, ?_, ?_, ?_, ?_, ?_, ?_, ?_, ?_, ?_, ?_, ?_, ?_, ?_, ?_⟩
      · simp only [hR.finOff, finalSize_append, finalSize, REv.final, ← h1, Option.or_none]
        cases hs : s.r.finOff with
        | none => simp
        | some G => simp [hG G hs]
      · simp only [hR.len, highest_append, highest, REv.reach, ← h2]; omega
      · simpa [maxData, hR.fc] using h3
      · simp only [hR.error, wasReset_append, wasReset, ← h4]
        cases s.r.error <;> simp
      · simpa [hR.drain] using h5
      · simpa using h6
      · have := hR.off; simp; omega
      · intro hc; simp at hc
      · intro hc; simp at hc
      · intro hs
        obtain ⟨g1, g2⟩ := h10 (fun e he => hs e (by simp [he]))
        have := hR.off
        simp only [returned_append, returned, charged_append, charged, hR.consumed, hR.delta, hR.len]
        omega
      · simp only [charged_append, charged, hR.delta]; omega
      · simp only [hR.fc]; exact h11
      · simp only [maxData, hR.fc]; exact h12
      · simp only [maxData, hR.fc]; exact h13
  | shutdown =>
    rcases shutdown_spec hI with ⟨-, hw⟩ | ⟨hdr, r', hw, hinv, w1, w2, w3, w4, w5, w6, w7⟩
    · have hstep : step s .shutdown = (s, .idle) := by
        simp only [step, hw]
      rw [hstep]
      refine ⟨by simp, .inl ?_, by simp [REv.isReject]⟩
      exact hH.neutral (by simp)
    · have hstep : step s .shutdown = ({ s with r := r' }, .shut (r'.off - s.r.off)) := by simp [step, hw]
      rw [hstep]
      refine ⟨by simp, .inl ?_, by simp [REv.isReject]⟩
      have := hI.offlen
      refine ⟨hinv, ?_, ?_, ?_, ?_, ?_, ?_, ?_, ?_, ?_, ?_, ?_, ?_, ?_, ?_⟩
      · simpa [w5] using h1
      · simpa [w2] using h2
      · simpa [maxData, w7] using h3
      · simpa [w6] using h4
      · simp [w3]
      · simpa using h6
      · simp; omega
      · intro _ hc; simp at hc
      · intro _ hc; simp at hc
      · intro hs
        obtain ⟨g1, g2⟩ := h10 (fun e he => hs e (by simp [he]))
        simp only [returned_append, returned, charged_append, charged]
        omega
      · simp only [charged_append, charged]; omega
      · simp only [w7]; exact h11
      · simp only [maxData, w7]; exact h12
      · simp only [maxData, w7]; exact h13
  | send now rtt fits =>
    have hd : s.dead = false := by
      cases hx : s.dead with
      | false => rfl
      | true => exact absurd ⟨hx, by simp [step, hx]⟩ hd0
    clear hd0
    have hidle : HInv m0 s (es ++ [.idle]) := hH.neutral (.inl rfl)
    by_cases hp : s.pending = true
    · obtain ⟨af, haf, haf2⟩ := almostFull_of hI
      -- auto-tuning only touches the window
      have htune : ∃ w, (if af = true then s.r.autotuneWindow now rtt else s.r)
          = { s.r with flowControl := { s.r.flowControl with window := w } } ∧
          s.r.flowControl.window ≤ w ∧ w ≤ s.r.flowControl.maxWindow := by
        cases af with
        | false => exact ⟨s.r.flowControl.window, rfl, Nat.le_refl _, h11⟩
        | true =>
          simp only [if_true, autotuneWindow, FlowControl.autotuneWindow]
          split
          · split
            · exact ⟨_, rfl, by omega, by omega⟩
            · exact ⟨s.r.flowControl.window, rfl, Nat.le_refl _, h11⟩
          · exact ⟨s.r.flowControl.window, rfl, Nat.le_refl _, h11⟩
      obtain ⟨w, htune, hw1, hw2⟩ := htune
      have hlim := hI.lim
      have hpd := h12 hp
      simp only [maxData, FlowControl.maxDataNext] at hlim hpd
      cases fits with
      | false =>
        have hstep : step s (.send now rtt false) =
            ({ s with r := { s.r with flowControl := { s.r.flowControl with window := w } } }, .idle) := by
          simp [step, hd, hp, haf, htune]
        rw [hstep]
        refine ⟨by simp, .inl ?_, by simp [REv.isReject]⟩
        obtain ⟨i1, i2, i3, i4, i5, i6, i7, i8, i9⟩ := hI
        refine ⟨⟨i1, i2, i3, i4, i5, i6, i7, i8, i9⟩, hidle.finOff, hidle.len, hidle.lim, hidle.err, hidle.drn,
          hidle.pre, hidle.offge, hidle.off, hidle.look, hidle.ret, hidle.chg, hw2, ?_, ?_⟩
        · intro _; simp only [maxData, FlowControl.maxDataNext]; omega
        · intro _; simp only [maxData, FlowControl.maxDataNext]; omega
      | true =>
        have hstep : step s (.send now rtt true) =
            ({ s with
                r := { s.r with
                  flowControl := { s.r.flowControl with
                    window := w, maxData := s.r.flowControl.consumed + w, lastUpdate := some now } },
                pending := false }, .advert (s.r.flowControl.consumed + w)) := by
          simp [step, hd, hp, haf, htune, updateMaxData, FlowControl.updateMaxData, FlowControl.maxDataNext]
        rw [hstep]
        refine ⟨by simp, .inl ?_, by simp [REv.isReject]⟩
        obtain ⟨i1, i2, i3, i4, i5, i6, i7, i8, i9⟩ := hI
        refine ⟨⟨i1, i2, i3, i4, i5, i6, i7, ?_, i9⟩, by simpa using h1, by simpa using h2, ?_, by simpa using h4,
          by simpa using h5, by simpa using h6, by simpa using h7, by simpa using h8, by simpa using h9,
          fun hs => by simpa using h10 (fun e he => hs e (by simp [he])), by simpa using h10', hw2, by simp, ?_⟩
        · simp only [maxData]; omega
        · simp [maxData]
        · intro _; simp only [maxData, FlowControl.maxDataNext]; omega
    · have hstep : step s (.send now rtt fits) = (s, .idle) := by simp [step, hd, hp]
      rw [hstep]
      exact ⟨by simp, .inl hidle, by simp [REv.isReject]⟩
  | lost =>
    have hd : s.dead = false := by
      cases hx : s.dead with
      | false => rfl
      | true => exact absurd ⟨hx, by simp [step, hx]⟩ hd0
    clear hd0
    have hidle : HInv m0 s (es ++ [.idle]) := hH.neutral (.inl rfl)
    by_cases hl : s.r.flowControl.lastUpdate.isSome = true
    · have hstep : step s .lost = ({ s with pending := true }, .idle) := by simp [step, hd, hl]
      rw [hstep]
      refine ⟨by simp, .inl ?_, by simp [REv.isReject]⟩
      exact ⟨hidle.inv, hidle.finOff, hidle.len, hidle.lim, hidle.err, hidle.drn,
          hidle.pre, hidle.offge, hidle.off, hidle.look, hidle.ret, hidle.chg, hidle.win, fun _ => h13 hl, h13⟩
    · have hstep : step s .lost = (s, .idle) := by simp [step, hd, hl]
      rw [hstep]
      exact ⟨by simp, .inl hidle, by simp [REv.isReject]⟩

/-- An inconsistent stream yields no data and stays as it is; only shutting it down
panics. -/
theorem step_broken {s : RSt} {es : List REv} (h : Broken s es) (op : ROp) :
    Broken (step s op).1 (es ++ [(step s op).2]) ∧ (step s op).2.isReject = false := by
  obtain ⟨h1, h2, h3, h4, h5⟩ := h
  rcases step_dead h1 op with ⟨cap, rfl⟩ | rfl | hs
  · have : step s (.read cap) = (s, .readErr .done) := by simp [step, emit, ready, h2]
    rw [this]
    exact ⟨⟨h1, h2, by simpa using h3, by simp [h4], by simpa using h5⟩, rfl⟩
  · by_cases hdr : s.r.drain = true
    · have : step s .shutdown = (s, .idle) := by simp [step, shutdown, hdr]
      rw [this]
      exact ⟨⟨h1, h2, by simpa using h3, by simp [h4], by simpa using h5⟩, rfl⟩
    · by_cases hlt : s.r.len < s.r.off
      · simp only [step, shutdown, hdr, if_pos hlt]
        exact ⟨⟨rfl, rfl, by simpa using h3, by simp [h4], by simpa using h5⟩, rfl⟩
      · simp only [step, shutdown, hdr, if_neg hlt]
        exact ⟨⟨h1, rfl, by simpa using h3, by simp [h4], by simpa using h5⟩, rfl⟩
  · rw [hs]
    exact ⟨⟨h1, h2, by simpa using h3, by simp [h4], by simpa using h5⟩, rfl⟩

/-- Along every history: the connection closes exactly if some frame was rejected;
no panic unless a reset violated the limit; and the relation holds. -/
theorem run_hinv (m w mw : Nat) (ops : List ROp) :
    ((run (start m w mw) ops).1.dead = true ↔ ∃ e ∈ (run (start m w mw) ops).2, e.isReject = true) ∧
    ((HInv m (run (start m w mw) ops).1 (run (start m w mw) ops).2 ∧
        (∀ e ∈ (run (start m w mw) ops).2, e ≠ .panic)) ∨
      Broken (run (start m w mw) ops).1 (run (start m w mw) ops).2) := by
  rw [← List.reverse_reverse ops]
  induction ops.reverse with
  | nil => exact ⟨by simp [run, start], .inl ⟨hinv_start m w mw, by simp [run]⟩⟩
  | cons op ops ih =>
    obtain ⟨i2, i3⟩ := ih
    simp only [List.reverse_cons, run_append]
    generalize run (start m w mw) ops.reverse = x at *
    obtain ⟨s, es⟩ := x
    simp only at *
    have hmem : ∀ (P : REv → Prop) (e' : REv), (∃ e ∈ es ++ [e'], P e) ↔ (∃ e ∈ es, P e) ∨ P e' := by
      intro P e'; simp [or_and_right, exists_or]
    rw [hmem]
    rcases i3 with ⟨i3, i1⟩ | i3
    · obtain ⟨j1, j2, j3⟩ := step_hinv i3 op
      refine ⟨by rw [j3, i2], ?_⟩
      rcases j2 with j2 | j2
      · refine .inl ⟨j2, ?_⟩
        intro e he
        simp only [List.mem_append, List.mem_singleton] at he
        rcases he with he | rfl
        · exact i1 e he
        · exact j1
      · exact .inr j2
    · obtain ⟨j1, j2⟩ := step_broken i3 op
      exact ⟨by simp [j1.dead, i2.mp i3.dead], .inr j1⟩

theorem run_length (s : RSt) (ops : List ROp) : (run s ops).2.length = ops.length := by
  induction ops generalizing s with
  | nil => rfl
  | cons op t ih => simp [run, ih]

/-- Every event of a history was caused by a step from the state reached just before. -/
theorem run_split {s : RSt} {ops : List ROp} {a : List REv} {e : REv} {b : List REv}
    (h : (run s ops).2 = a ++ e :: b) :
    ∃ o1 op o2, ops = o1 ++ op :: o2 ∧ (run s o1).2 = a ∧ (step (run s o1).1 op).2 = e := by
  induction ops generalizing s a with
  | nil => simp [run] at h
  | cons op t ih =>
    simp only [run] at h
    cases a with
    | nil =>
      simp only [List.nil_append, List.cons.injEq] at h
      exact ⟨[], op, t, rfl, rfl, h.1⟩
    | cons x a =>
      simp only [List.cons_append, List.cons.injEq] at h
      obtain ⟨o1, op', o2, rfl, h2, h3⟩ := ih h.2
      exact ⟨op :: o1, op', o2, rfl, by simp [run, h.1, h2], by simpa [run] using h3⟩

theorem run_mem_split {s : RSt} {ops : List ROp} {e : REv} (h : e ∈ (run s ops).2) :
    ∃ o1 op o2 b, ops = o1 ++ op :: o2 ∧ (step (run s o1).1 op).2 = e ∧
      (run s ops).2 = (run s o1).2 ++ e :: b := by
  obtain ⟨a, b, hab⟩ := List.append_of_mem h
  obtain ⟨o1, op, o2, h1, h2, h3⟩ := run_split hab
  exact ⟨o1, op, o2, b, h1, h3, by rw [h2, hab]⟩

/-- A step that accepts a final size records it. -/
theorem step_final {m0 : Nat} {s : RSt} {es : List REv} (h : HInv m0 s es) {op : ROp} {F : Nat}
    (hF : (step s op).2.final = some F) : (step s op).1.r.finOff = some F := by
  cases op with
  | write off data fin =>
    simp only [step] at hF ⊢
    split
    · rename_i hc; simp [hc] at hF
    · rename_i hc
      have hmo : (RangeBuf.mk' data off fin).maxOff = off + data.length := by simp [RangeBuf.maxOff]
      rcases write_spec h.inv (RangeBuf.wf_mk' data off fin) (by rfl) with ⟨-, hw⟩ | ⟨-, -, hw⟩ | ⟨-, -, r', hw, hW⟩
      · simp [hc, hw] at hF
      · simp [hc, hw] at hF
      · cases fin with
        | false => simp [hc, hw, REv.final] at hF
        | true =>
          simp only [hc, hw, REv.final] at hF
          have := hW.finOff
          simp only [hmo, RangeBuf.fin_mk', if_true] at this
          simp only [hw, this]; simpa using hF
  | reset code G =>
    simp only [step] at hF ⊢
    split
    · rename_i hc; simp [hc] at hF
    · rename_i hc
      rcases reset_spec h.inv code G with ⟨-, hw⟩ | ⟨-, -, -, r', hw, -⟩ | ⟨-, -, -, ret, r', hw, hR⟩
      · simp [hc, hw] at hF
      · simp [hc, hw] at hF
      · simp only [hc, hw, REv.final] at hF
        simp only [hw, hR.finOff]; simpa using hF
  | read cap =>
    simp only [step] at hF
    split at hF
    · split at hF <;> simp at hF
    · simp at hF
  | shutdown => simp only [step] at hF; split at hF <;> simp at hF
  | send now rtt fits =>
    simp only [step] at hF
    split at hF
    · simp at hF
    · split at hF
      · split at hF
        · simp at hF
        · split at hF <;> simp at hF
      · simp at hF
  | lost =>
    simp only [step] at hF
    split at hF
    · simp at hF
    · split at hF <;> simp at hF

/-- While the connection is open the relation holds. -/
theorem run_alive {m w mw : Nat} {ops : List ROp} (hd : (run (start m w mw) ops).1.dead = false) :
    HInv m (run (start m w mw) ops).1 (run (start m w mw) ops).2 := by
  rcases (run_hinv m w mw ops).2 with ⟨h, -⟩ | h
  · exact h
  · have := h.dead; simp [hd] at this

/-- Frames are accepted and limits advertised only while the connection is open. -/
theorem alive_of_event {s : RSt} {op : ROp}
    (h : (step s op).2.final.isSome ∨ 0 < (step s op).2.reach ∨ ∃ n, (step s op).2 = .advert n) :
    s.dead = false := by
  cases hd : s.dead with
  | false => rfl
  | true =>
    rcases step_dead hd op with ⟨cap, rfl⟩ | rfl | hs
    · simp only [step] at h
      split at h
      · split at h <;> simp at h
      · simp at h
    · simp only [step] at h
      split at h <;> simp at h
    · simp [hs] at h

end Verif.Stream.RecvBuf
