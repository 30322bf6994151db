import Verif.Stream.SendSpec

/-! The history invariant of sending streams. -/

namespace Verif.Stream.SendBuf
open Verif Ranges

/-- What the accumulator of `finalSize` counts. -/
def finAcc (es : List SEv) : Nat × Option Nat :=
  es.foldl (fun (acc : Nat × Option Nat) e =>
    match e with
    | .offered d fin n =>
      (acc.1 + n, if fin = true ∧ n = d.length then acc.2.or (some (acc.1 + n)) else acc.2)
    | .cut F _ => (acc.1, some F)
    | _ => acc) (0, none)

theorem finalSize_eq (es : List SEv) : finalSize es = (finAcc es).2 := rfl

structure HInv (m0 : Nat) (st : SSt) (es : List SEv) : Prop where
  inv : SInv st.s (written es)
  frames : ∀ f ∈ st.frames, f.1 + f.2 ≤ st.s.emitOff ∧
    ∃ bs fin, SEv.sent f.1 bs fin ∈ es ∧ bs.length = f.2
  emit : st.s.emitOff = sentMax es
  lim : st.s.maxData = limit m0 es
  acc : finAcc es = ((written es).length, st.s.finOff)
  mem : ¬ wasCut es → ∀ n, Mem n st.s.acked.ranges ↔ ackedByte es n
  any : ¬ wasCut es → (st.s.acked.ranges ≠ [] ↔ ∃ off len, SEv.acked off len ∈ es)
  cut : wasCut es ↔ (st.s.error ≠ none ∨ st.s.shutdown = true)
  sent : ∀ o, o < st.s.emitOff → sentByte es o
  safe : ¬ wasCut es → ∀ o, o < st.s.off → ackedByte es o ∨ Pend st.s.data o ∨ outstanding es o
  nopanic : SEv.panic ∉ es

theorem hinv_start {m0 : Nat} (h : m0 < 2 ^ 62) : HInv m0 (start m0) [] where
  inv := sinv_new h
  frames := by simp [start]
  emit := rfl
  lim := rfl
  acc := rfl
  mem := by intro _ n; simp [start, new, RangeSet.new, RangeSet.ranges, ackedByte]
  any := by simp [start, new, RangeSet.new, RangeSet.ranges]
  cut := by simp [wasCut, start, new]
  sent := by simp [start, new]
  safe := by simp [start, new]
  nopanic := by simp

/-! Effects of appending one event. -/

theorem ackedByte_append {es : List SEv} {e : SEv} {o : Nat} :
    ackedByte (es ++ [e]) o ↔ ackedByte es o ∨ ∃ off len, e = .acked off len ∧ off ≤ o ∧ o < off + len := by
  simp only [ackedByte, List.mem_append, List.mem_singleton]
  constructor
  · rintro ⟨a, b, h | h, h2⟩
    · exact .inl ⟨a, b, h, h2⟩
    · exact .inr ⟨a, b, h.symm, h2⟩
  · rintro (⟨a, b, h, h2⟩ | ⟨a, b, h, h2⟩)
    · exact ⟨a, b, .inl h, h2⟩
    · exact ⟨a, b, .inr h.symm, h2⟩

theorem sentByte_mono {es : List SEv} (e : SEv) {o : Nat} (h : sentByte es o) :
    sentByte (es ++ [e]) o := by
  obtain ⟨a, b, c, h1, h2⟩ := h
  exact ⟨a, b, c, by simp [h1], h2⟩

theorem outstanding_mono {es : List SEv} {e : SEv} {o : Nat} (h : outstanding es o)
    (he : ∀ off len, e = .lost off len → ¬ (off ≤ o ∧ o < off + len)) :
    outstanding (es ++ [e]) o := by
  obtain ⟨pre, a, b, c, post, h1, h2, h3⟩ := h
  refine ⟨pre, a, b, c, post ++ [e], by simp [h1], h2, ?_⟩
  intro o' l' hm
  simp only [List.mem_append, List.mem_singleton] at hm
  rcases hm with hm | hm
  · exact h3 o' l' hm
  · exact he o' l' hm.symm

theorem outstanding_new {es : List SEv} {off : Nat} {bs : Bytes} {fin : Bool} {o : Nat}
    (h : off ≤ o ∧ o < off + bs.length) : outstanding (es ++ [.sent off bs fin]) o :=
  ⟨es, off, bs, fin, [], rfl, h, by simp⟩

theorem wasCut_append {es : List SEv} {e : SEv} :
    wasCut (es ++ [e]) ↔ wasCut es ∨ ∃ F u, e = .cut F u := by
  simp only [wasCut, List.mem_append, List.mem_singleton]
  constructor
  · rintro ⟨a, b, h | h⟩
    · exact .inl ⟨a, b, h⟩
    · exact .inr ⟨a, b, h.symm⟩
  · rintro (⟨a, b, h⟩ | ⟨a, b, h⟩)
    · exact ⟨a, b, .inl h⟩
    · exact ⟨a, b, .inr h.symm⟩

/-- An event that is none of those the invariant speaks about. -/
def SEv.neutral : SEv → Prop
  | .refused _ => True
  | .idle => True
  | _ => False

theorem HInv.idle {m0 : Nat} {st : SSt} {es : List SEv} (h : HInv m0 st es) {e : SEv}
    (he : e.neutral) : HInv m0 st (es ++ [e]) := by
  have hw : written (es ++ [e]) = written es := by cases e <;> simp_all [written, SEv.neutral]
  have hc : wasCut (es ++ [e]) ↔ wasCut es := by
    rw [wasCut_append]; cases e <;> simp_all [SEv.neutral]
  have ha : ∀ n, ackedByte (es ++ [e]) n ↔ ackedByte es n := by
    intro n; rw [ackedByte_append]; cases e <;> simp_all [SEv.neutral]
  refine ⟨by rw [hw]; exact h.inv, ?_, ?_, ?_, ?_, ?_, ?_, by rw [hc]; exact h.cut, ?_, ?_, ?_⟩
  · intro f hf
    obtain ⟨h1, b, c, h2, h3⟩ := h.frames f hf
    exact ⟨h1, b, c, by simp [h2], h3⟩
  · rw [h.emit]; simp only [sentMax, List.foldl_append]; cases e <;> simp_all [SEv.neutral]
  · rw [h.lim]; simp only [limit, List.foldl_append]; cases e <;> simp_all [SEv.neutral]
  · rw [hw, ← h.acc]; simp only [finAcc, List.foldl_append]; cases e <;> simp_all [SEv.neutral]
  · rw [hc]; intro hn n; rw [ha]; exact h.mem hn n
  · rw [hc]; intro hn; rw [h.any hn]
    constructor
    · rintro ⟨a, b, h⟩; exact ⟨a, b, by simp [h]⟩
    · rintro ⟨a, b, h⟩
      refine ⟨a, b, ?_⟩
      simp only [List.mem_append, List.mem_singleton] at h
      rcases h with h | h
      · exact h
      · subst h; simp [SEv.neutral] at he
  · intro o ho; exact sentByte_mono _ (h.sent o ho)
  · rw [hc]; intro hn o ho
    rcases h.safe hn o ho with h1 | h1 | h1
    · exact .inl ((ha o).mpr h1)
    · exact .inr (.inl h1)
    · exact .inr (.inr (outstanding_mono h1 (by rintro a b rfl; simp [SEv.neutral] at he)))
  · have := h.nopanic
    simp only [List.mem_append, List.mem_singleton]
    rintro (h1 | rfl)
    · exact this h1
    · simp [SEv.neutral] at he

/-- A write. -/
theorem HInv.took {m0 : Nat} {st : SSt} {es : List SEv} (h : HInv m0 st es) {s' : SendBuf}
    {n : Nat} {d : Bytes} {fin : Bool} (T : Took st.s (written es) d d.length fin s' n) :
    HInv m0 { st with s := s' } (es ++ [.offered d fin n]) := by
  have hw : written (es ++ [.offered d fin n]) = written es ++ d.take n := by simp [written]
  have hc : wasCut (es ++ [.offered d fin n]) ↔ wasCut es := by rw [wasCut_append]; simp
  have ha : ∀ o, ackedByte (es ++ [.offered d fin n]) o ↔ ackedByte es o := by
    intro o; rw [ackedByte_append]; simp
  have hF := T.fields
  have e1 : s'.emitOff = st.s.emitOff := by rw [hF]
  have e2 : s'.acked = st.s.acked := by rw [hF]
  have e3 : s'.maxData = st.s.maxData := by rw [hF]
  have e4 : s'.error = st.s.error := by rw [hF]
  have e5 : s'.shutdown = st.s.shutdown := by rw [hF]
  have e6 : s'.off = st.s.off + n := by rw [hF]
  have hl : (d.take n).length = n := by rw [List.length_take]; have := T.le; omega
  refine ⟨by rw [hw]; exact T.inv, ?_, ?_, ?_, ?_, ?_, ?_, ?_, ?_, ?_, ?_⟩
  · intro f hf
    obtain ⟨h1, b, c, h2, h3⟩ := h.frames f hf
    exact ⟨by simp only [e1]; exact h1, b, c, by simp [h2], h3⟩
  · simp only [e1]; rw [h.emit]; simp [sentMax, List.foldl_append]
  · simp only [e3]; rw [h.lim]; simp [limit, List.foldl_append]
  · rw [hw]
    have : finAcc (es ++ [.offered d fin n]) = ((finAcc es).1 + n,
        if fin = true ∧ n = d.length then (finAcc es).2.or (some ((finAcc es).1 + n))
          else (finAcc es).2) := by
      simp [finAcc, List.foldl_append]
    rw [this, h.acc]
    simp only [List.length_append, hl, Prod.mk.injEq, true_and]
    rw [T.finOff]
    simp only [Bool.and_eq_true, beq_iff_eq]
    split
    · rename_i hq
      cases hfo : st.s.finOff with
      | none =>
        rcases h.inv.state with hs | hs
        · rw [hs.2.2]; rfl
        · rw [hs.2.1] at hfo; simp at hfo
      | some F =>
        have := T.dead (by rw [hfo]; simp)
        rw [this.1, h.inv.fin F hfo]; rfl
    · rfl
  · simp only [e2]; rw [hc]; intro hn o; rw [ha]; exact h.mem hn o
  · simp only [e2]; rw [hc]; intro hn; rw [h.any hn]; simp
  · simp only [e4, e5]; rw [hc]; exact h.cut
  · simp only [e1]; intro o ho; exact sentByte_mono _ (h.sent o ho)
  · rw [hc]; intro hn o ho
    simp only [e6] at ho
    by_cases ho' : o < st.s.off
    · rcases h.safe hn o ho' with h1 | h1 | h1
      · exact .inl ((ha o).mpr h1)
      · exact .inr (.inl ((T.pend o).mpr (.inl h1)))
      · exact .inr (.inr (outstanding_mono h1 (by simp)))
    · exact .inr (.inl ((T.pend o).mpr (.inr ⟨by omega, ho⟩)))
  · have := h.nopanic; simp [this]


/-- A STREAM frame is sent. -/
theorem HInv.sending {m0 : Nat} {st : SSt} {es : List SEv} (h : HInv m0 st es) {s' : SendBuf}
    {n : Nat} {bs : Bytes} {fin : Bool} (S : Sent st.s (written es) n s' bs fin) :
    HInv m0 { s := s', frames := st.frames ++ [(st.s.offFront, bs.length)] }
      (es ++ [.sent st.s.offFront bs fin]) := by
  have hw : written (es ++ [.sent st.s.offFront bs fin]) = written es := by simp [written]
  have hc : wasCut (es ++ [.sent st.s.offFront bs fin]) ↔ wasCut es := by rw [wasCut_append]; simp
  have ha : ∀ o, ackedByte (es ++ [.sent st.s.offFront bs fin]) o ↔ ackedByte es o := by
    intro o; rw [ackedByte_append]; simp
  have hF := S.fields
  have e1 : s'.emitOff = Nat.max st.s.emitOff (st.s.offFront + bs.length) := by rw [hF]
  have e2 : s'.acked = st.s.acked := by rw [hF]
  have e3 : s'.maxData = st.s.maxData := by rw [hF]
  have e4 : s'.error = st.s.error := by rw [hF]
  have e5 : s'.shutdown = st.s.shutdown := by rw [hF]
  have e6 : s'.off = st.s.off := by rw [hF]
  have e7 : s'.finOff = st.s.finOff := by rw [hF]
  have hfront := h.inv.front
  have hge1 : st.s.emitOff ≤ s'.emitOff := by rw [e1]; exact Nat.le_max_left _ _
  have hge2 : st.s.offFront + bs.length ≤ s'.emitOff := by rw [e1]; exact Nat.le_max_right _ _
  refine ⟨by rw [hw]; exact S.inv, ?_, ?_, ?_, ?_, ?_, ?_, ?_, ?_, ?_, ?_⟩
  · intro f hf
    simp only [List.mem_append, List.mem_singleton] at hf
    rcases hf with hf | rfl
    · obtain ⟨h1, b, c, h2, h3⟩ := h.frames f hf
      exact ⟨by simp only; omega, b, c, by simp [h2], h3⟩
    · exact ⟨hge2, bs, fin, by simp, rfl⟩
  · simp only [e1]; rw [h.emit]; simp only [sentMax, List.foldl_append]; rfl
  · simp only [e3]; rw [h.lim]; simp [limit, List.foldl_append]
  · rw [hw]; simp only [e7, ← h.acc]; simp [finAcc, List.foldl_append]
  · simp only [e2]; rw [hc]; intro hn o; rw [ha]; exact h.mem hn o
  · simp only [e2]; rw [hc]; intro hn; rw [h.any hn]; simp
  · simp only [e4, e5]; rw [hc]; exact h.cut
  · intro o ho
    by_cases ho' : o < st.s.emitOff
    · exact sentByte_mono _ (h.sent o ho')
    · refine ⟨st.s.offFront, bs, fin, by simp, by omega, ?_⟩
      simp only [e1] at ho
      by_cases hq : o < st.s.offFront + bs.length
      · exact hq
      · exfalso
        have : Nat.max st.s.emitOff (st.s.offFront + bs.length) ≤ o := Nat.max_le.mpr ⟨by omega, by omega⟩
        omega
  · rw [hc]; intro hn o ho
    simp only [e6] at ho
    rcases h.safe hn o ho with h1 | h1 | h1
    · exact .inl ((ha o).mpr h1)
    · by_cases hq : st.s.offFront ≤ o ∧ o < st.s.offFront + bs.length
      · exact .inr (.inr (outstanding_new hq))
      · exact .inr (.inl ((S.pend o).mpr ⟨h1, hq⟩))
    · exact .inr (.inr (outstanding_mono h1 (by simp)))
  · have := h.nopanic; simp [this]

/-- A frame is acknowledged. -/
theorem HInv.acking {m0 : Nat} {st : SSt} {es : List SEv} (h : HInv m0 st es) {s' : SendBuf}
    {n off len : Nat} (A : Acked st.s (written es) off (off + len) s' n) :
    HInv m0 { st with s := s' } (es ++ [.acked off len]) := by
  have hw : written (es ++ [.acked off len]) = written es := by simp [written]
  have hc : wasCut (es ++ [.acked off len]) ↔ wasCut es := by rw [wasCut_append]; simp
  have ha : ∀ o, ackedByte (es ++ [.acked off len]) o ↔
      ackedByte es o ∨ (off ≤ o ∧ o < off + len) := by
    intro o; rw [ackedByte_append]
    constructor
    · rintro (h1 | ⟨a, b, h1, h2⟩)
      · exact .inl h1
      · simp only [SEv.acked.injEq] at h1
        rw [← h1.1, ← h1.2] at h2; exact .inr h2
    · rintro (h1 | h1)
      · exact .inl h1
      · exact .inr ⟨off, len, rfl, h1⟩
  have hF := A.fields
  have e1 : s'.emitOff = st.s.emitOff := by rw [hF]
  have e3 : s'.maxData = st.s.maxData := by rw [hF]
  have e4 : s'.error = st.s.error := by rw [hF]
  have e5 : s'.shutdown = st.s.shutdown := by rw [hF]
  have e6 : s'.off = st.s.off := by rw [hF]
  have e7 : s'.finOff = st.s.finOff := by rw [hF]
  have hm : ¬ wasCut es → ∀ o, Mem o s'.acked.ranges ↔ ackedByte es o ∨ (off ≤ o ∧ o < off + len) := by
    intro hn o; rw [A.mem, h.mem hn]
  refine ⟨by rw [hw]; exact A.inv, ?_, ?_, ?_, ?_, ?_, ?_, ?_, ?_, ?_, ?_⟩
  · intro f hf
    obtain ⟨h1, b, c, h2, h3⟩ := h.frames f hf
    exact ⟨by simp only [e1]; exact h1, b, c, by simp [h2], h3⟩
  · simp only [e1]; rw [h.emit]; simp [sentMax, List.foldl_append]
  · simp only [e3]; rw [h.lim]; simp [limit, List.foldl_append]
  · rw [hw]; simp only [e7, ← h.acc]; simp [finAcc, List.foldl_append]
  · rw [hc]; intro hn o; rw [ha]; exact hm hn o
  · rw [hc]; intro hn
    refine ⟨fun _ => ⟨off, len, by simp⟩, fun _ => A.some⟩
  · simp only [e4, e5]; rw [hc]; exact h.cut
  · simp only [e1]; intro o ho; exact sentByte_mono _ (h.sent o ho)
  · rw [hc]; intro hn o ho
    simp only [e6] at ho
    by_cases hk : ackedByte es o ∨ (off ≤ o ∧ o < off + len)
    · exact .inl ((ha o).mpr hk)
    rcases h.safe hn o ho with h1 | h1 | h1
    · exact .inl ((ha o).mpr (.inl h1))
    · exact .inr (.inl (A.keep o h1 (by rw [hm hn]; exact hk)))
    · exact .inr (.inr (outstanding_mono h1 (by simp)))
  · have := h.nopanic; simp [this]

/-- A frame is lost. -/
theorem HInv.losing {m0 : Nat} {st : SSt} {es : List SEv} (h : HInv m0 st es) {s' : SendBuf}
    {n off len : Nat} (R : Requeue st.s (written es) off (off + len) s' n) :
    HInv m0 { st with s := s' } (es ++ [.lost off len]) := by
  have hw : written (es ++ [.lost off len]) = written es := by simp [written]
  have hc : wasCut (es ++ [.lost off len]) ↔ wasCut es := by rw [wasCut_append]; simp
  have ha : ∀ o, ackedByte (es ++ [.lost off len]) o ↔ ackedByte es o := by
    intro o; rw [ackedByte_append]; simp
  have hF := R.fields
  have e1 : s'.emitOff = st.s.emitOff := by rw [hF]
  have e2 : s'.acked = st.s.acked := by rw [hF]
  have e3 : s'.maxData = st.s.maxData := by rw [hF]
  have e4 : s'.error = st.s.error := by rw [hF]
  have e5 : s'.shutdown = st.s.shutdown := by rw [hF]
  have e6 : s'.off = st.s.off := by rw [hF]
  have e7 : s'.finOff = st.s.finOff := by rw [hF]
  refine ⟨by rw [hw]; exact R.inv, ?_, ?_, ?_, ?_, ?_, ?_, ?_, ?_, ?_, ?_⟩
  · intro f hf
    obtain ⟨h1, b, c, h2, h3⟩ := h.frames f hf
    exact ⟨by simp only [e1]; exact h1, b, c, by simp [h2], h3⟩
  · simp only [e1]; rw [h.emit]; simp [sentMax, List.foldl_append]
  · simp only [e3]; rw [h.lim]; simp [limit, List.foldl_append]
  · rw [hw]; simp only [e7, ← h.acc]; simp [finAcc, List.foldl_append]
  · simp only [e2]; rw [hc]; intro hn o; rw [ha]; exact h.mem hn o
  · simp only [e2]; rw [hc]; intro hn; rw [h.any hn]; simp
  · simp only [e4, e5]; rw [hc]; exact h.cut
  · simp only [e1]; intro o ho; exact sentByte_mono _ (h.sent o ho)
  · rw [hc]; intro hn o ho
    simp only [e6] at ho
    by_cases hk : ackedByte es o
    · exact .inl ((ha o).mpr hk)
    rcases h.safe hn o ho with h1 | h1 | h1
    · exact absurd h1 hk
    · exact .inr (.inl (R.pend o h1))
    · by_cases hq : off ≤ o ∧ o < off + len
      · exact .inr (.inl (R.again o hq.1 hq.2 ho (by rw [h.mem hn]; exact hk)))
      · refine .inr (.inr (outstanding_mono h1 ?_))
        rintro a b hab
        simp only [SEv.lost.injEq] at hab
        rw [← hab.1, ← hab.2]; exact hq
  · have := h.nopanic; simp [this]

/-- The stream is abandoned. -/
theorem HInv.cutting {m0 : Nat} {st : SSt} {es : List SEv} (h : HInv m0 st es) {s' : SendBuf}
    (C : Cut st.s (written es) s') :
    HInv m0 { st with s := s' } (es ++ [.cut st.s.emitOff (st.s.off - st.s.emitOff)]) := by
  have hw : written (es ++ [.cut st.s.emitOff (st.s.off - st.s.emitOff)]) = written es := by
    simp [written]
  have hc : wasCut (es ++ [.cut st.s.emitOff (st.s.off - st.s.emitOff)]) := by
    rw [wasCut_append]; exact .inr ⟨_, _, rfl⟩
  refine ⟨by rw [hw]; exact C.inv, ?_, ?_, ?_, ?_, fun hn => absurd hc hn, fun hn => absurd hc hn,
    ⟨fun _ => C.dead, fun _ => hc⟩, ?_, fun hn => absurd hc hn, ?_⟩
  · intro f hf
    obtain ⟨h1, b, c, h2, h3⟩ := h.frames f hf
    exact ⟨by simp only [C.emitOff]; exact h1, b, c, by simp [h2], h3⟩
  · simp only [C.emitOff]; rw [h.emit]; simp [sentMax, List.foldl_append]
  · simp only [C.maxData]; rw [h.lim]; simp [limit, List.foldl_append]
  · rw [hw]; simp only [C.finOff]
    have := h.acc
    simp only [finAcc] at this
    simp only [finAcc, List.foldl_append, this, List.foldl_cons, List.foldl_nil]
  · simp only [C.emitOff]; intro o ho; exact sentByte_mono _ (h.sent o ho)
  · have := h.nopanic; simp [this]

/-- The limit is raised. -/
theorem HInv.raising {m0 : Nat} {st : SSt} {es : List SEv} (h : HInv m0 st es) {m : Nat}
    (hm : m < 2 ^ 62) : HInv m0 { st with s := st.s.updateMaxData m } (es ++ [.limit m]) := by
  have hw : written (es ++ [.limit m]) = written es := by simp [written]
  have hc : wasCut (es ++ [.limit m]) ↔ wasCut es := by rw [wasCut_append]; simp
  have ha : ∀ o, ackedByte (es ++ [.limit m]) o ↔ ackedByte es o := by
    intro o; rw [ackedByte_append]; simp
  refine ⟨by rw [hw]; exact updateMax_spec h.inv hm, ?_, ?_, ?_, ?_, ?_, ?_, by rw [hc]; exact h.cut,
    ?_, ?_, ?_⟩
  · intro f hf
    obtain ⟨h1, b, c, h2, h3⟩ := h.frames f hf
    exact ⟨h1, b, c, by simp [h2], h3⟩
  · simp only [updateMaxData]; rw [h.emit]; simp [sentMax, List.foldl_append]
  · simp only [updateMaxData]; rw [h.lim]; simp [limit, List.foldl_append]
  · rw [hw]; simp only [updateMaxData, ← h.acc]; simp [finAcc, List.foldl_append]
  · rw [hc]; intro hn o; rw [ha]; exact h.mem hn o
  · rw [hc]; intro hn; simp only [updateMaxData]; rw [h.any hn]; simp
  · intro o ho; exact sentByte_mono _ (h.sent o ho)
  · rw [hc]; intro hn o ho
    rcases h.safe hn o ho with h1 | h1 | h1
    · exact .inl ((ha o).mpr h1)
    · exact .inr (.inl h1)
    · exact .inr (.inr (outstanding_mono h1 (by simp)))
  · have := h.nopanic; simp [this]

theorem took_append {s : SendBuf} {W d : Bytes} {cap : Nat} {fin : Bool} {s' : SendBuf} {n : Nat}
    (T : Took s W d (Nat.min cap d.length) fin s' n) :
    Took s W (d.take cap) (d.take cap).length fin s' n := by
  have hl : (d.take cap).length = Nat.min cap d.length := List.length_take
  have hn : n ≤ Nat.min cap d.length := by rw [T.amount]; exact Nat.min_le_left _ _
  have ht : (d.take cap).take n = d.take n := by
    rw [List.take_take]
    congr 1
    exact Nat.min_eq_left (Nat.le_trans hn (Nat.min_le_left _ _))
  exact ⟨by rw [ht]; exact T.inv, by rw [hl]; exact T.amount, by rw [hl]; exact hn,
    by rw [hl]; exact T.dead, by rw [hl]; exact T.finOff, T.fields, T.count, T.pend⟩

theorem step_hinv {m0 : Nat} {st : SSt} {es : List SEv} (h : HInv m0 st es) {op : SOp}
    (hop : op.Ok) : HInv m0 (step st op).1 (es ++ [(step st op).2]) := by
  cases op with
  | write d fin =>
    simp only [step]
    rcases write_spec h.inv d fin with ⟨s', n, e, T⟩ | ⟨er, e, hne, -⟩
    · rw [e]; exact h.took T
    · rw [e]; cases er <;> first | exact h.idle trivial | exact absurd rfl hne
  | append d cap fin =>
    simp only [step]
    rcases appendBuf_spec h.inv d cap (if cap < d.length then false else fin) with
      ⟨s', n, r, e, T, -⟩ | ⟨er, e, hne, -⟩
    · rw [e]; exact h.took (took_append T)
    · rw [e]; cases er <;> first | exact h.idle trivial | exact absurd rfl hne
  | emit n =>
    simp only [step]
    split
    · exact h.idle trivial
    · obtain ⟨s', bs, fin, e, S⟩ := emit_spec h.inv n
      rw [e]; exact h.sending S
  | ack i =>
    simp only [step]
    cases hf : st.frames[i]? with
    | none => exact h.idle trivial
    | some f =>
      obtain ⟨off, len⟩ := f
      have hb := (h.frames (off, len) (List.mem_of_getElem? hf)).1
      obtain ⟨s', n, e, A⟩ := ackAndDrop_spec h.inv hb
      simp only [e]; exact h.acking A
  | lost i =>
    simp only [step]
    cases hf : st.frames[i]? with
    | none => exact h.idle trivial
    | some f =>
      obtain ⟨off, len⟩ := f
      simp only
      split
      · exact h.idle trivial
      · obtain ⟨s', n, e, R⟩ := retransmit_spec h.inv off len
        simp only [e]; exact h.losing R
  | maxData m => exact h.raising hop
  | stop code =>
    simp only [step]
    rcases stop_spec h.inv code with ⟨-, e⟩ | ⟨-, s', e, C, -⟩
    · rw [e]; exact h.idle trivial
    · rw [e]; exact h.cutting C
  | shutdown =>
    simp only [step]
    rcases shutdown_spec h.inv with ⟨-, e⟩ | ⟨-, s', e, C, -⟩
    · rw [e]; exact h.idle trivial
    · rw [e]; exact h.cutting C

theorem run_hinv' {m0 : Nat} {st : SSt} {es : List SEv} (h : HInv m0 st es) {ops : List SOp}
    (hop : ∀ op ∈ ops, op.Ok) : HInv m0 (run st ops).1 (es ++ (run st ops).2) := by
  induction ops generalizing st es with
  | nil => simpa [run] using h
  | cons op t ih =>
    have := ih (step_hinv h (hop op (by simp))) (fun o ho => hop o (by simp [ho]))
    simpa [run] using this

theorem run_hinv {m0 : Nat} (hm : m0 < 2 ^ 62) {ops : List SOp} (hop : ∀ op ∈ ops, op.Ok) :
    HInv m0 (run (start m0) ops).1 (run (start m0) ops).2 := by
  simpa using run_hinv' (hinv_start hm) hop

theorem run_split {s : SSt} {ops : List SOp} {a : List SEv} {e : SEv} {b : List SEv}
    (h : (run s ops).2 = a ++ e :: b) :
    ∃ o1 op o2, ops = o1 ++ op :: o2 ∧ (run s o1).2 = a ∧ (step (run s o1).1 op).2 = e := by
  induction ops generalizing s a with
  | nil => simp [run] at h
  | cons op t ih =>
    simp only [run] at h
    cases a with
    | nil =>
      simp only [List.nil_append, List.cons.injEq] at h
      exact ⟨[], op, t, rfl, rfl, h.1⟩
    | cons x a =>
      simp only [List.cons_append, List.cons.injEq] at h
      obtain ⟨o1, op', o2, rfl, h2, h3⟩ := ih h.2
      exact ⟨op :: o1, op', o2, rfl, by simp [run, h.1, h2], by simpa [run] using h3⟩

theorem run_append (s : SSt) (a b : List SOp) :
    run s (a ++ b) = ((run (run s a).1 b).1, (run s a).2 ++ (run (run s a).1 b).2) := by
  induction a generalizing s with
  | nil => simp [run]
  | cons op a ih => simp [run, ih]

/-- What a step that sends a frame tells. -/
theorem step_sent {m0 : Nat} {st : SSt} {es : List SEv} (h : HInv m0 st es) {op : SOp}
    {off : Nat} {bs : Bytes} {fin : Bool} (he : (step st op).2 = .sent off bs fin) :
    ∃ n s', op = .emit n ∧ off = st.s.offFront ∧ st.s.error = none ∧
      Sent st.s (written es) n s' bs fin ∧ (step st op).1.s = s' := by
  cases op with
  | write d f =>
    simp only [step] at he
    split at he <;> simp at he
  | append d cap f =>
    simp only [step] at he
    split at he <;> simp at he
  | emit n =>
    simp only [step] at he ⊢
    by_cases hst : st.s.isStopped = true
    · rw [if_pos hst] at he; simp at he
    · rw [if_neg hst] at he
      rw [if_neg hst]
      obtain ⟨s', bs', fin', e, S⟩ := emit_spec h.inv n
      rw [e] at he
      simp only [SEv.sent.injEq] at he
      obtain ⟨h1, h2, h3⟩ := he
      subst h1 h2 h3
      refine ⟨n, s', rfl, rfl, ?_, S, by rw [e]⟩
      simpa [isStopped] using hst
  | ack i =>
    simp only [step] at he
    split at he
    · simp at he
    · split at he <;> simp at he
  | lost i =>
    simp only [step] at he
    split at he
    · simp at he
    · split at he
      · simp at he
      · split at he <;> simp at he
  | maxData m => simp [step] at he
  | stop code => simp only [step] at he; split at he <;> simp at he
  | shutdown => simp only [step] at he; split at he <;> simp at he

theorem chain_lens_le {b t : Nat} {l : List RangeBuf} (h : Chain b l t) : lens l + b ≤ t := by
  induction l generalizing b with
  | nil => simp only [Chain] at h; simp [lens]; omega
  | cons c l ih =>
    simp only [Chain] at h
    have := ih h.2
    have hc : c.len ≤ c.len' := by simp only [RangeBuf.len]; omega
    rw [lens_cons]; omega

/-- Repeated sending empties the queue. -/
theorem emits_drain {m0 : Nat} {st : SSt} {es : List SEv} (h : HInv m0 st es) (hc : ¬ wasCut es)
    (ns : List Nat) (hn : ∀ n ∈ ns, 0 < n) :
    let r := run st (ns.map .emit)
    HInv m0 r.1 (es ++ r.2) ∧ ¬ wasCut (es ++ r.2) ∧
    r.1.s.bufferedBytes ≤ st.s.bufferedBytes - ns.length ∧
    (∀ o, Pend st.s.data o → Pend r.1.s.data o ∨ sentByte r.2 o) := by
  induction ns generalizing st es with
  | nil => simp [run, h, hc]; exact fun o ho => .inl ho
  | cons n t ih =>
    simp only [List.map_cons, run]
    have he : st.s.error = none := by
      by_cases hh : st.s.error = none
      · exact hh
      · exact absurd (h.cut.mpr (.inl hh)) hc
    obtain ⟨s', bs, fin, e, S⟩ := emit_spec h.inv n
    have hst : step st (.emit n) = ({ s := s', frames := st.frames ++ [(st.s.offFront, bs.length)] },
        .sent st.s.offFront bs fin) := by
      simp [step, isStopped, he, e]
    rw [hst]
    have h1 := h.sending S
    have hc1 : ¬ wasCut (es ++ [.sent st.s.offFront bs fin]) := by
      rw [wasCut_append]; simp [hc]
    obtain ⟨i1, i2, i3, i4⟩ := ih h1 hc1 (fun k hk => hn k (by simp [hk]))
    simp only [List.append_assoc, List.singleton_append] at i1 i2 i3 i4
    refine ⟨i1, i2, ?_, ?_⟩
    · have hcount := S.count
      have hp : st.s.bufferedBytes = 0 ∨ 0 < bs.length := by
        by_cases hb : st.s.bufferedBytes = 0
        · exact .inl hb
        · right
          have hl : 0 < lens st.s.data := by have := h.inv.buf; omega
          obtain ⟨o, ho⟩ := pend_of_lens hl
          have := h.inv.front.2.2.1 o ho
          have := h.inv.pend_lt ho
          exact S.progress (hn n (by simp)) (by omega)
      simp only [List.length_cons]
      omega
    · intro o ho
      by_cases hq : st.s.offFront ≤ o ∧ o < st.s.offFront + bs.length
      · exact .inr ⟨_, _, _, List.mem_cons_self, hq⟩
      · rcases i4 o ((S.pend o).mpr ⟨ho, hq⟩) with h2 | ⟨a, b, c, h2, h3⟩
        · exact .inl h2
        · exact .inr ⟨a, b, c, by simp [h2], h3⟩

theorem emits_all {m0 : Nat} {st : SSt} {es : List SEv} (h : HInv m0 st es) (hc : ¬ wasCut es)
    (ns : List Nat) (hn : ∀ n ∈ ns, 0 < n) (hl : (written es).length ≤ ns.length) {o : Nat}
    (ho : Pend st.s.data o) : sentByte (run st (ns.map .emit)).2 o := by
  obtain ⟨i1, i2, i3, i4⟩ := emits_drain h hc ns hn
  rcases i4 o ho with h1 | h1
  · exfalso
    have := lens_pos h1
    have := i1.inv.buf
    obtain ⟨base, hch, -⟩ := h.inv.chain
    have := chain_lens_le hch
    have := h.inv.buf
    have := h.inv.wlen
    omega
  · exact h1

/-- Acknowledged frames were sent. -/
theorem acked_sent {m0 : Nat} (hm : m0 < 2 ^ 62) {ops : List SOp} (hop : ∀ op ∈ ops, op.Ok)
    {off len : Nat} (ha : SEv.acked off len ∈ (run (start m0) ops).2) :
    ∃ bs fin, SEv.sent off bs fin ∈ (run (start m0) ops).2 ∧ bs.length = len := by
  obtain ⟨a, b, hes⟩ := List.append_of_mem ha
  obtain ⟨o1, op, o2, h1, h2, h3⟩ := run_split hes
  have h := run_hinv hm (ops := o1) (fun o ho => hop o (by simp [h1, ho]))
  rw [h2] at h
  have key : (off, len) ∈ (run (start m0) o1).1.frames := by
    generalize (run (start m0) o1).1 = st at *
    cases op with
    | ack i =>
      simp only [step] at h3
      cases hf : st.frames[i]? with
      | none => rw [hf] at h3; simp at h3
      | some f =>
        obtain ⟨x, y⟩ := f
        rw [hf] at h3
        simp only at h3
        split at h3
        · simp only [SEv.acked.injEq] at h3
          rw [← h3.1, ← h3.2]; exact List.mem_of_getElem? hf
        · simp at h3
    | write d f => simp only [step] at h3; split at h3 <;> simp at h3
    | append d cap f => simp only [step] at h3; split at h3 <;> simp at h3
    | emit n =>
      simp only [step] at h3
      split at h3
      · simp at h3
      · split at h3 <;> simp at h3
    | lost i =>
      simp only [step] at h3
      split at h3
      · simp at h3
      · split at h3
        · simp at h3
        · split at h3 <;> simp at h3
    | maxData m => simp [step] at h3
    | stop code => simp only [step] at h3; split at h3 <;> simp at h3
    | shutdown => simp only [step] at h3; split at h3 <;> simp at h3
  obtain ⟨-, bs, fin, h4, h5⟩ := h.frames _ key
  exact ⟨bs, fin, by rw [hes]; simp [h4], h5⟩

end Verif.Stream.SendBuf
