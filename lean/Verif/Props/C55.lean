import Verif.Stream.RecvHist

/-! # C55 — the end of a stream always becomes visible to the reader -/

namespace Verif.C55
open Verif Stream RecvBuf

/-- The final size first became known through a non-empty frame, after the application
had already read everything. -/
def LateFin (es : List REv) : Prop :=
  ∃ a off data c b t, es = a ++ .wrote off data true c b :: t ∧ data ≠ [] ∧ finalSize a = none ∧
    (delivered a).length = off + data.length

/-- What C55 asks for: everything up to the final size has arrived, the stream was
neither reset nor abandoned, and the application was not told about the end yet. Then
a read with enough room reports it. -/
def Visible (s : RSt) (es : List REv) : Prop :=
  ∀ F cap, wasReset es = none → wasShut es = false → finTold es = false → finalSize es = some F →
    (∀ o, o < F → (firstByte es o).isSome) → F - (delivered es).length ≤ cap →
    ∃ bs, (step s (.read cap)).2 = .got bs true

/-- **C55 is false in general**: data arrives and is read; then the same data is
retransmitted in a frame that also carries FIN. The frame is accepted and the final
size known, but the reader is never told. -/
theorem late_fin_invisible :
    ∃ ops, (run (start 10 5 5) ops).1.dead = false ∧ finalSize (run (start 10 5 5) ops).2 = some 2 ∧
      delivered (run (start 10 5 5) ops).2 = [1, 2] ∧
      ¬ Visible (run (start 10 5 5) ops).1 (run (start 10 5 5) ops).2 := by
  refine ⟨[.write 0 [1, 2] false, .read 5, .write 0 [1, 2] true], by decide, by decide, by decide, ?_⟩
  intro h
  have hb : ∀ o, o < 2 → (firstByte (run (start 10 5 5)
      [.write 0 [1, 2] false, .read 5, .write 0 [1, 2] true]).2 o).isSome := by decide
  obtain ⟨bs, hbs⟩ := h 2 5 (by decide) (by decide) (by decide) (by decide) hb (by decide)
  have h2 : (step (run (start 10 5 5) [.write 0 [1, 2] false, .read 5, .write 0 [1, 2] true]).1 (.read 5)).2
    = .readErr .done := by decide
  rw [h2] at hbs
  simp at hbs

/-- When the end is known and everything was read, either the application was told or
the stream still is readable. -/
theorem told_or_ready (m w mw : Nat) (ops : List ROp) :
    let s := (run (start m w mw) ops).1
    let es := (run (start m w mw) ops).2
    wasReset es = none → wasShut es = false → .resetRejected .flowControl ∉ es → ¬ LateFin es →
      s.r.finOff = some s.r.off → finTold es = true ∨ s.r.ready = true := by
  simp only
  rw [← List.reverse_reverse ops]
  induction ops.reverse with
  | nil => simp [run, start, new]
  | cons op ops ih =>
    have hh := (run_hinv m w mw ops.reverse).2
    simp only [List.reverse_cons, run_append]
    generalize run (start m w mw) ops.reverse = x at *
    obtain ⟨s, es⟩ := x
    simp only at *
    intro k1 k2 k3 k4 k5
    have k1' : wasReset es = none := by
      rw [wasReset_append] at k1
      cases hw : wasReset es with
      | none => rfl
      | some x => simp [hw] at k1
    have k2' : wasShut es = false := by
      rw [wasShut_append] at k2
      simp only [Bool.or_eq_false_iff] at k2
      exact k2.1
    have k3' : .resetRejected .flowControl ∉ es := fun h => k3 (by simp [h])
    have k4' : ¬ LateFin es := by
      rintro ⟨a, off, data, c, b, t, rfl, h⟩
      exact k4 ⟨a, off, data, c, b, t ++ [(step s op).2], by simp, h⟩
    have ih' := ih k1' k2' k3' k4'
    rw [finTold_append]
    rcases hh with ⟨h, -⟩ | h
    rotate_left
    · exact absurd h.seen k3'
    have hoff := h.off k1' k2'
    -- steps that change neither the stream's data nor its offsets
    have same : (step s op).1.r = s.r → (finTold es || finTold [(step s op).2]) = true ∨ (step s op).1.r.ready = true := by
      intro hs
      rw [hs] at k5 ⊢
      rcases ih' k5 with h | h
      · exact .inl (by simp [h])
      · exact .inr h
    by_cases hd : s.dead = true ∧ step s op = (s, .idle)
    · exact same (by rw [hd.2])
    have hdf : (∀ cap, op ≠ .read cap) → op ≠ .shutdown → s.dead = false := by
      intro h1 h2
      cases hx : s.dead with
      | false => rfl
      | true =>
        rcases step_dead hx op with ⟨cap, rfl⟩ | rfl | h3
        · exact absurd rfl (h1 cap)
        · exact absurd rfl h2
        · exact absurd ⟨hx, h3⟩ hd
    cases op with
    | write off data fin =>
      have hdd := hdf (by simp) (by simp)
      have hmo : (RangeBuf.mk' data off fin).maxOff = off + data.length := by simp [RangeBuf.maxOff]
      rcases write_spec h.inv (RangeBuf.wf_mk' data off fin) (by rfl) with ⟨-, hw⟩ | ⟨-, -, hw⟩ | ⟨-, hnb, r', hw, hW⟩
      · exact same (by simp [step, hdd, hw])
      · exact same (by simp [step, hdd, hw])
      · have hstep : step s (.write off data fin) = ({ s with r := r' },
            .wrote off data fin (off + data.length - s.r.len)
              (if s.r.drain then off + data.length - s.r.len else 0)) := by
          simp [step, hdd, hw]
        rw [hstep] at k4 k5 ⊢
        simp only at k4 k5 ⊢
        have ho := hW.off
        rw [h.drn, k2'] at ho
        simp only [Bool.false_eq_true, if_false] at ho
        by_cases hk : s.r.finOff = some s.r.off
        · -- the end was known already: nothing changes
          rcases ih' hk with h1 | h1
          · exact .inl (by simp [h1])
          · right
            simp only [ready, hW.keep hk, ho] at h1 ⊢
            exact h1
        · -- the end became known now
          have hf := hW.finOff
          cases fin with
          | false =>
            simp only [RangeBuf.fin_mk', Bool.false_eq_true, if_false] at hf
            rw [hf, ho] at k5
            exact absurd k5 hk
          | true =>
            simp only [RangeBuf.fin_mk', if_true, hmo] at hf
            rw [hf, ho] at k5
            simp only [Option.some.injEq] at k5
            have hnone : s.r.finOff = none := by
              cases hs : s.r.finOff with
              | none => rfl
              | some G =>
                exfalso
                by_cases hG : G = off + data.length
                · rw [hs, hG, k5] at hk; exact hk rfl
                · exact hnb (.inl ⟨G, hs, .inr ⟨rfl, by rw [hmo]; exact hG⟩⟩)
            have hdata : data = [] := by
              by_cases hc : data = []
              · exact hc
              · exfalso
                exact k4 ⟨es, off, data, _, _, [], rfl, hc, by rw [← h.finOff, hnone], by omega⟩
            -- all received data was read, so nothing is buffered
            have hlen : s.r.len = s.r.off := by
              have h1 := h.inv.offlen
              have h2 : ¬ (off + data.length < s.r.len) := fun hlt => hnb (.inr ⟨rfl, by rw [hmo]; exact hlt⟩)
              omega
            have hemp : s.r.data = [] := by
              cases hD : s.r.data with
              | nil => rfl
              | cons e t =>
                exfalso
                have hi := h.inv
                have g1 := hi.dlen e (by simp [hD])
                have g2 := hi.d.1 e (by simp [hD])
                by_cases hz : e.2.len = 0
                · have := hi.empt e (by simp [hD]) hz
                  rw [hnone] at this; simp at this
                · have := len_zero_iff e.2
                  have := maxOff_ge e.2
                  rw [len_zero_iff] at hz
                  omega
            obtain ⟨b, hb, hbo⟩ := hW.fresh hemp (by rw [h.drn, k2']) hnone (by simp [hdata]) rfl
            right
            simp only [ready, hb, hbo, ho, RangeBuf.off_mk']
            simp only [hdata, List.length_nil] at k5
            simp; omega
    | read cap =>
      rcases emit_spec h.inv cap with ⟨-, hw⟩ | ⟨-, e, he, hw, -⟩ | ⟨hrd, out, f, r', hw, hR⟩
      · exact same (by simp [step, hw])
      · rw [h.err, k1'] at he; simp at he
      · obtain ⟨af, haf, -⟩ := almostFull_of hR.inv
        simp only [step, hw, haf] at k5 ⊢
        rw [hR.finOff] at k5
        have := hR.fin.mpr k5
        left
        simp [this, finTold]
    | reset code F =>
      have hdd := hdf (by simp) (by simp)
      rcases reset_spec h.inv code F with ⟨-, hw⟩ | ⟨-, -, -, r', hw, -⟩ | ⟨-, -, -, ret, r', hw, hR⟩
      · exact same (by simp [step, hdd, hw])
      · exfalso; apply k3; simp [step, hdd, hw]
      · exfalso
        simp only [step, hdd, hw, Bool.false_eq_true, if_false, wasReset_append, k1', wasReset] at k1
        simp at k1
    | shutdown =>
      rcases shutdown_spec h.inv with ⟨-, hw⟩ | ⟨-, r', hw, -⟩
      · exact same (by simp [step, hw])
      · exfalso
        simp only [step, hw, wasShut_append, wasShut] at k2
        simp at k2
    | send now rtt fits =>
      have hdd := hdf (by simp) (by simp)
      have hk : ∀ r1 : RecvBuf, r1.data = s.r.data → r1.off = s.r.off → r1.ready = s.r.ready := by
        intro r1 a b; simp [ready, a, b]
      have hat : ∀ af, (if af = true then s.r.autotuneWindow now rtt else s.r).data = s.r.data ∧
          (if af = true then s.r.autotuneWindow now rtt else s.r).off = s.r.off ∧
          (if af = true then s.r.autotuneWindow now rtt else s.r).finOff = s.r.finOff := by
        intro af; split <;> simp [autotuneWindow]
      by_cases hp : s.pending = true
      · obtain ⟨af, haf, -⟩ := almostFull_of h.inv
        obtain ⟨g1, g2, g3⟩ := hat af
        cases fits with
        | true =>
          simp only [step, hdd, hp, haf, if_true, Bool.false_eq_true, if_false, updateMaxData, g2, g3] at k5 ⊢
          rw [hk _ (by simp only [g1]) (by simp only [g2])]
          rcases ih' k5 with h1 | h1
          · exact .inl (by simp [h1])
          · exact .inr h1
        | false =>
          simp only [step, hdd, hp, haf, if_true, Bool.false_eq_true, if_false, g2, g3] at k5 ⊢
          rw [hk _ g1 g2]
          rcases ih' k5 with h1 | h1
          · exact .inl (by simp [h1])
          · exact .inr h1
      · exact same (by simp [step, hdd, hp])
    | lost =>
      exact same (by simp only [step]; split <;> first | rfl | (split <;> rfl))

/-- **C55, partial.** The end of stream becomes visible in every history in which the
final size does not arrive late in the sense of `LateFin`. Missing: that case, for
which the claim is false. -/
theorem end_visible_partial (m w mw : Nat) (ops : List ROp)
    (hfl : .resetRejected .flowControl ∉ (run (start m w mw) ops).2)
    (hlate : ¬ LateFin (run (start m w mw) ops).2) :
    Visible (run (start m w mw) ops).1 (run (start m w mw) ops).2 := by
  intro F cap h1 h2 h3 h4 h5 h6
  have key := told_or_ready m w mw ops h1 h2 hfl hlate
  rcases (run_hinv m w mw ops).2 with ⟨h, -⟩ | h
  rotate_left
  · exact absurd h.seen hfl
  generalize run (start m w mw) ops = x at *
  obtain ⟨s, es⟩ := x
  simp only at *
  have hoff := h.off h1 h2
  have hlook := h.look h1 h2
  have hF := h.finOff.trans h4
  have hle : s.r.off ≤ F := by
    have := h.inv.offlen; have := h.inv.fin F hF; omega
  have hrdy : s.r.ready = true := by
    by_cases hc : s.r.off = F
    · rcases key (by rw [hF, hc]) with h | h
      · simp [h3] at h
      · exact h
    · rw [ready_iff h.inv]
      left
      rw [hlook _ (Nat.le_refl _)]
      exact h5 _ (by omega)
  rcases emit_spec h.inv cap with ⟨hc, -⟩ | ⟨-, e, he, -⟩ | ⟨-, out, fin, r', hw, hR⟩
  · simp [hrdy] at hc
  · rw [h.err, h1] at he; simp at he
  · obtain ⟨af, haf, -⟩ := almostFull_of hR.inv
    have hr1 := hR.off
    have hr2 := hR.inv.offlen
    have hr3 := hR.inv.fin F (by rw [hR.finOff, hF])
    have hend : r'.off = F := by
      rcases hR.full with h1 | h1
      · omega
      · by_cases hc : r'.off = F
        · exact hc
        · have := h5 r'.off (by omega)
          rw [hlook _ (by omega)] at h1
          simp [h1] at this
    have : fin = true := hR.fin.mpr (by rw [hF, hend])
    exact ⟨out, by simp [step, hw, haf, this]⟩

/-- Once nothing is buffered and the read position is the final size, no read succeeds. -/
theorem stays_silent {m : Nat} (more : List ROp) : ∀ (t : RSt) (es' : List REv), HInv m t es' ∨ t.r.data = [] ∧ t.dead = true →
      t.r.data = [] → (t.dead = false → t.r.finOff = some t.r.off) →
      ∀ bs f, .got bs f ∉ (run t more).2 := by
    induction more with
    | nil => simp [run]
    | cons op more ih =>
      intro t es' hI hdat hfin bs f
      simp only [run, List.mem_cons, not_or]
      have hnr : t.r.ready = false := by simp [ready, hdat]
      have base : (step t op).2 ≠ .got bs f ∧ (step t op).1.r.data = [] ∧
          ((step t op).1.dead = false → (step t op).1.r.finOff = some (step t op).1.r.off) := by
        cases op with
        | read cap => simp [step, emit, hnr, hdat]; exact hfin
        | shutdown =>
          by_cases h1 : t.r.drain = true
          · simp only [step, shutdown, h1, if_true]; exact ⟨by simp, hdat, hfin⟩
          · by_cases h2 : t.r.len < t.r.off
            · simp [step, shutdown, h1, h2]
            · simp only [step, shutdown, h1, h2, if_false]
              refine ⟨by simp, rfl, fun hd' => ?_⟩
              rcases hI with hI | hI
              · have := hI.inv.fin _ (hfin hd'); simp [this, hfin hd']
              · simp [hI.2] at hd'
        | send now rtt fits =>
          simp only [step]
          split
          · exact ⟨by simp, hdat, hfin⟩
          · split
            · split
              · exact ⟨by simp, hdat, by simp⟩
              · rename_i af _
                have hat : (if af = true then t.r.autotuneWindow now rtt else t.r).data = t.r.data ∧
                    (if af = true then t.r.autotuneWindow now rtt else t.r).off = t.r.off ∧
                    (if af = true then t.r.autotuneWindow now rtt else t.r).finOff = t.r.finOff := by
                  split <;> simp [autotuneWindow]
                split
                · exact ⟨by simp, by simp [updateMaxData, hat, hdat], by simpa [updateMaxData, hat] using hfin⟩
                · exact ⟨by simp, by simp [hat, hdat], by simpa [hat] using hfin⟩
            · exact ⟨by simp, hdat, hfin⟩
        | lost =>
          simp only [step]
          split
          · exact ⟨by simp, hdat, hfin⟩
          · split <;> exact ⟨by simp, hdat, hfin⟩
        | write off data fin =>
          by_cases hd : t.dead = true
          · simp only [step, hd, if_true]; exact ⟨by simp, hdat, fun h => by simp at h⟩
          · have hd' : t.dead = false := by simpa using hd
            rcases hI with hI | hI
            · rcases write_spec hI.inv (RangeBuf.wf_mk' data off fin) (by rfl)
                with ⟨-, hw⟩ | ⟨-, -, hw⟩ | ⟨-, hnb, r', hw, hW⟩
              · simp only [step, hd', hw, Bool.false_eq_true, if_false]; exact ⟨by simp, hdat, by simp⟩
              · simp only [step, hd', hw, Bool.false_eq_true, if_false]; exact ⟨by simp, hdat, by simp⟩
              · simp only [step, hd', hw, Bool.false_eq_true, if_false]
                have hk := hfin hd'
                refine ⟨by simp, by rw [hW.keep hk, hdat], fun _ => ?_⟩
                have e1 := hW.finOff
                have e2 := hW.off
                have e3 := hW.len
                have e4 := hI.inv.fin _ hk
                have e5 : (RangeBuf.mk' data off fin).maxOff ≤ t.r.off := by
                  by_cases hc : (RangeBuf.mk' data off fin).maxOff ≤ t.r.off
                  · exact hc
                  · exact absurd (.inl ⟨_, hk, .inl (by omega)⟩) hnb
                have e6 : (RangeBuf.mk' data off fin).fin = true → (RangeBuf.mk' data off fin).maxOff = t.r.off := by
                  intro hf
                  by_cases hc : (RangeBuf.mk' data off fin).maxOff = t.r.off
                  · exact hc
                  · exact absurd (.inl ⟨_, hk, .inr ⟨hf, fun h => hc h.symm⟩⟩) hnb
                have e7 : r'.len = t.r.off := by rw [e3]; split <;> omega
                have e8 : r'.off = t.r.off := by rw [e2]; split <;> simp [e7]
                rw [e1, e8]
                split
                · rename_i hf; rw [e6 hf]
                · exact hk
            · simp [hI.2] at hd'
        | reset code F =>
          by_cases hd : t.dead = true
          · simp only [step, hd, if_true]; exact ⟨by simp, hdat, fun h => by simp at h⟩
          · have hd' : t.dead = false := by simpa using hd
            rcases hI with hI | hI
            · have hk := hfin hd'
              rcases reset_spec hI.inv code F with ⟨-, hw⟩ | ⟨-, -, -, r', hw, hx⟩ | ⟨-, -, -, ret, r', hw, hR⟩
              · simp only [step, hd', hw, Bool.false_eq_true, if_false]; exact ⟨by simp, hdat, by simp⟩
              · simp only [step, hd', hw, Bool.false_eq_true, if_false]; exact ⟨by simp, hx, by simp⟩
              · simp only [step, hd', hw, Bool.false_eq_true, if_false]
                refine ⟨by simp, ?_, fun _ => by rw [hR.finOff, hR.allRead]⟩
                have hnr : r'.ready = false := by
                  cases he : t.r.error with
                  | none => exact hR.notReady he (by simp [hk])
                  | some x =>
                    have hw' := hw
                    have h1 := (hI.inv.err (by simp [he])).1
                    simp only [reset] at hw'
                    split at hw'
                    · simp at hw'
                    · split at hw'
                      · simp at hw'
                      · simp only [he, Option.isSome_some, if_true, Prod.mk.injEq] at hw'
                        rw [← hw'.2]; exact hnr
                cases hD : r'.data with
                | nil => rfl
                | cons e rest =>
                  exfalso
                  have g0 := hR.empties e (by simp [hD])
                  have g1 := hR.inv.empt e (by simp [hD]) g0
                  have g2 := hR.inv.d.1 e (by simp [hD])
                  rw [hR.finOff] at g1
                  have g3 := hR.allRead
                  simp only [Option.some.injEq] at g1
                  obtain ⟨k, b⟩ := e
                  simp only [ready, hD, beq_eq_false_iff_ne] at hnr
                  rw [len_zero_iff] at g0
                  simp only at *
                  omega
            · simp [hI.2] at hd'
      refine ⟨fun h => base.1 h.symm, ?_⟩
      have hI' : HInv m (step t op).1 (es' ++ [(step t op).2]) ∨ (step t op).1.r.data = [] ∧ (step t op).1.dead = true := by
        by_cases hd : (step t op).1.dead = true
        · exact .inr ⟨base.2.1, hd⟩
        · rcases hI with hI | hI
          · rcases (step_hinv hI op).2.1 with h | h
            · exact .inl h
            · exact absurd h.dead hd
          · exfalso
            apply hd
            rcases step_dead hI.2 op with ⟨cap, rfl⟩ | rfl | hs
            · simp [step, emit, hnr, hI.2]
            · simp only [step]; split <;> simp [hI.2]
            · rw [hs]; exact hI.2
      exact ih _ _ hI' base.2.1 base.2.2 bs f

/-- The exclusion in `end_visible_partial` is needed in every instance: once the final
size arrived late, no read ever succeeds again. -/
theorem late_fin_lost (m w mw : Nat) (ops more : List ROp) (off : Nat) (data : Bytes) (c b : Nat)
    (hreset : wasReset (run (start m w mw) ops).2 = none)
    (hshut : wasShut (run (start m w mw) ops).2 = false)
    (hfin : finalSize (run (start m w mw) ops).2 = none)
    (hne : data ≠ []) (hall : (delivered (run (start m w mw) ops).2).length = off + data.length)
    (hacc : (step (run (start m w mw) ops).1 (.write off data true)).2 = .wrote off data true c b) :
    ∀ bs f, .got bs f ∉ (run (step (run (start m w mw) ops).1 (.write off data true)).1 more).2 := by
  have hd := alive_of_event (s := (run (start m w mw) ops).1) (op := .write off data true)
    (by rw [hacc]; simp [REv.final])
  have h := run_alive hd
  obtain ⟨-, hinv, -⟩ := step_hinv h (.write off data true)
  generalize run (start m w mw) ops = x at *
  obtain ⟨s, es⟩ := x
  simp only at *
  have hoff := h.off hreset hshut
  have hnone := h.finOff.trans hfin
  have hmo : (RangeBuf.mk' data off true).maxOff = off + data.length := by simp [RangeBuf.maxOff]
  have hnp : 0 < data.length := List.length_pos_iff.mpr hne
  -- after the late FIN nothing is buffered
  have hstart : (step s (.write off data true)).1.r.data = [] ∧
      (step s (.write off data true)).1.r.finOff = some (step s (.write off data true)).1.r.off := by
    rcases write_spec h.inv (RangeBuf.wf_mk' data off true) (by rfl) with ⟨-, hw⟩ | ⟨-, -, hw⟩ | ⟨-, hnb, r', hw, hW⟩
    · simp [step, hd, hw] at hacc
    · simp [step, hd, hw] at hacc
    · simp only [step, hd, hw, Bool.false_eq_true, if_false]
      have hf := hW.finOff
      simp only [RangeBuf.fin_mk', if_true, hmo] at hf
      have ho := hW.off
      rw [h.drn, hshut] at ho
      simp only [Bool.false_eq_true, if_false] at ho
      refine ⟨?_, by rw [hf, ho]; congr 1; omega⟩
      have hi := hW.inv
      cases hD : r'.data with
      | nil => rfl
      | cons e t =>
        exfalso
        have g1 := hi.dlen e (by simp [hD])
        have g2 := hi.d.1 e (by simp [hD])
        have g3 := hi.fin _ hf
        by_cases hz : e.2.len = 0
        · -- an empty chunk is never queued for a non-empty frame
          have hdat : (s.r.write (.mk' data off true)).2.data = s.r.data := by
            have e1 : (RangeBuf.mk' data off true).isEmpty = false := by
              simp only [RangeBuf.isEmpty, RangeBuf.len_mk', beq_eq_false_iff_ne]; omega
            have e2 : s.r.off ≥ (RangeBuf.mk' data off true).maxOff := by rw [hmo]; omega
            simp only [write, hnone, RangeBuf.fin_mk', e1]
            split
            · rfl
            · simp only [Option.any_none, Bool.false_eq_true, if_false]
              split
              · rfl
              · simp [e2]
          rw [hw] at hdat
          simp only at hdat
          have := h.inv.empt e (by rw [← hdat, hD]; simp) hz
          rw [hnone] at this; simp at this
        · have := maxOff_ge e.2
          rw [len_zero_iff] at hz
          omega
  apply stays_silent (m := m) more _ (es ++ [(step s (.write off data true)).2]) ?_ hstart.1 (fun _ => hstart.2)
  rcases hinv with h | h
  · exact .inl h
  · exact .inr ⟨h.data, h.dead⟩

/-- FIN in an empty frame after everything was read is reported. -/
example : (run (start 10 5 5) [.write 0 [1, 2] false, .read 5, .write 2 [] true, .read 5]).2
    = [.wrote 0 [1, 2] false 2 0, .got [1, 2] false, .wrote 2 [] true 0 0, .got [] true] := by decide

end Verif.C55
