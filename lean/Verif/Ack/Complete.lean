import Verif.Ack.Inv

/-!
What becomes of numbers that were received: they stay in the set of numbers to acknowledge until an
ACK frame with a number at least as large is acknowledged.
-/

namespace Verif.Ack
open Verif Verif.Ranges Verif.Packet

/-- The frame acknowledges the packet number. -/
def Reports (f : Frame) (n : Nat) : Prop := ∃ r ∈ f.ranges.ranges, r.1 ≤ n ∧ n < r.2

/-- An ACK frame with this property was acknowledged. -/
def Y.Confirmed (y : Y) (p : Frame → Prop) : Prop := ∃ i t f, i ∈ y.acked ∧ y.sent[i]? = some (t, f) ∧ p f

/-- An ACK frame with the number was sent and not declared lost. -/
def Y.Outstanding (y : Y) (n : Nat) : Prop := ∃ i t f, i ∉ y.lost ∧ y.sent[i]? = some (t, f) ∧ Reports f n

/-- Whatever else is to be sent, the next packet for which there is room has an ACK frame with the
number. -/
def Y.Due (y : Y) (n : Nat) : Prop := ∀ required cwnd, ∃ f,
  (y.step (.send required true cwnd true)).sent = y.sent ++ [(y.now, f)] ∧ Reports f n

/-- There are never as many ranges to acknowledge as are kept. -/
def Y.Room (y : Y) : List Act → Prop
  | [] => True
  | a :: t => y.sp.needAck.len < maxAckRanges ∧ (y.step a).Room t

/-- When ACK frames are acknowledged, each reported what had been received up to its largest number,
except for what an acknowledged ACK frame had reported before. -/
def Y.OnTime (y : Y) : List Act → Prop
  | [] => True
  | a :: t => (match a with
      | .recv _ _ is => ∀ f ∈ y.frames is, ∀ n t k, (n, t, true) ∈ y.rx → Reports f k → n ≤ k →
          Reports f n ∨ y.Confirmed (Reports · n)
      | _ => True) ∧ (y.step a).OnTime t

/-- Numbers arrive in increasing order. -/
def Y.Ordered (y : Y) : List Act → Prop
  | [] => True
  | a :: t => (match a with
      | .recv pn _ _ => ∀ n t el, (n, t, el) ∈ y.rx → n < pn
      | _ => True) ∧ (y.step a).Ordered t

/-- What a step does to the frames sent and acknowledged. -/
structure Ext (y y' : Y) : Prop where
  sent : ∃ l, y'.sent = y.sent ++ l
  acked : ∃ l, y'.acked = y.acked ++ l

theorem Ext.confirmed {y y' : Y} (h : Ext y y') {p : Frame → Prop} (hc : y.Confirmed p) : y'.Confirmed p := by
  obtain ⟨i, t, f, h1, h2, h3⟩ := hc
  obtain ⟨l, hl⟩ := h.sent
  obtain ⟨k, hk⟩ := h.acked
  refine ⟨i, t, f, by rw [hk]; exact List.mem_append_left _ h1, ?_, h3⟩
  rw [hl, List.getElem?_append_left (List.getElem?_eq_some_iff.mp h2).1]; exact h2

theorem ext_step (y : Y) (a : Act) : Ext y (y.step a) := by
  cases a <;> simp only [Y.step]
  · split
    · exact ⟨⟨[], by simp⟩, ⟨[], by simp⟩⟩
    · split
      · exact ⟨⟨[], by simp⟩, ⟨[], by simp⟩⟩
      · exact ⟨⟨[], by simp⟩, ⟨_, rfl⟩⟩
  · split
    · exact ⟨⟨[], by simp⟩, ⟨[], by simp⟩⟩
    · exact ⟨⟨_, rfl⟩, ⟨[], by simp⟩⟩
  · split
    · exact ⟨⟨[], by simp⟩, ⟨[], by simp⟩⟩
    · exact ⟨⟨[], by simp⟩, ⟨[], by simp⟩⟩
  · exact ⟨⟨[], by simp⟩, ⟨[], by simp⟩⟩

/-- The two results of building a packet. -/
theorem send_cases (y : Y) (required allowed cwnd fits : Bool) :
    (∃ f, y.step (.send required allowed cwnd fits) =
        { y with sp := { y.sp with elicited := false }, sent := y.sent ++ [(y.now, f)] } ∧
      f.ranges = y.sp.needAck) ∨ y.step (.send required allowed cwnd fits) = y := by
  simp only [Y.step, Space.send]
  split
  · rename_i h; split at h
    · split at h <;> simp only [Prod.mk.injEq] at h
      · exact absurd h.1 (by simp)
      · right; rw [← h.2]
    · simp only [Prod.mk.injEq] at h; right; rw [← h.2]
  · rename_i h; split at h
    · split at h <;> simp only [Prod.mk.injEq, Option.some.injEq] at h
      · left; exact ⟨_, by rw [← h.2], by rw [← h.1]⟩
      · exact absurd h.1 (by simp)
    · exact absurd h (by simp)

theorem due_of {y : Y} {n : Nat} (he : y.sp.elicited = true) (hm : Mem n y.sp.needAck.ranges) : y.Due n := by
  intro required cwnd
  have hlen : 0 < y.sp.needAck.len := List.length_pos_iff.mpr (mem_nonempty hm)
  refine ⟨{ delay := (y.now - y.sp.largestTime) / 2 ^ y.exponent, ranges := y.sp.needAck }, ?_, hm⟩
  simp only [Y.step, Space.send, he, Bool.true_or, and_self, and_true, hlen, if_true, Bool.and_self]

/-- Every number received is to be acknowledged, unless an ACK frame as large was acknowledged. -/
def Y.Kept (y : Y) : Prop := ∀ n t el, (n, t, el) ∈ y.rx →
  Mem n y.sp.needAck.ranges ∨ y.Confirmed (fun f => ∃ k, Reports f k ∧ n ≤ k)

theorem kept_step {y : Y} (h : y.Inv) (hk : y.Kept) (hr : y.sp.needAck.len < maxAckRanges) (a : Act) :
    (y.step a).Kept := by
  have hext := ext_step y a
  cases a with
  | recv pn el is =>
    cases hs : y.sp.seen.contains pn with
    | true => simp only [Y.step, hs, if_true]; exact hk
    | false =>
      obtain ⟨r, s', a1, a2, a3, a4, a5, st, b2, b3, b4, b5, b6, b7, b8⟩ := recv_spec h (el := el) (is := is) hs
      have hlen : r.ranges.length < maxAckRanges := Nat.lt_of_le_of_lt a5 hr
      intro n t e hn
      rw [st] at hn
      rcases List.mem_append.mp hn with hn | hn
      · rcases hk n t e hn with hm | hc
        · by_cases hall : ∀ f ∈ y.frames is, ∀ k, IsMax k f.ranges.ranges → k < n
          · left; rw [st]; exact b5 hlen n (a4 n hm hall)
          · right
            simp only [Classical.not_forall, Nat.not_lt] at hall
            obtain ⟨f, hf, k, hk, hnk⟩ := hall
            obtain ⟨t, i, hi, hfi⟩ := frames_mem hf
            rw [st]
            exact ⟨i, t, f, List.mem_append_right _ hi, hfi, k, hk.1, hnk⟩
        · exact .inr (hext.confirmed hc)
      · simp only [List.mem_singleton, Prod.mk.injEq] at hn
        left; rw [st, hn.1]; exact b3
  | send required allowed cwnd fits =>
    rcases send_cases y required allowed cwnd fits with ⟨f, hf, -⟩ | hf
    · intro n t e hn
      rw [hf] at hn
      rcases hk n t e hn with hm | hc
      · left; rw [hf]; exact hm
      · exact .inr (hext.confirmed hc)
    · rw [hf]; exact hk
  | lost i =>
    simp only [Y.step]; split <;> exact hk
  | tick d => exact hk

theorem kept_run {y : Y} (h : y.Inv) (hk : y.Kept) {l : List Act} (hr : y.Room l) : (y.run l).Kept := by
  induction l generalizing y with
  | nil => exact hk
  | cons a t ih => exact ih (inv_step h a) (kept_step h hk hr.1 a) hr.2

theorem Y.Initial.kept {y : Y} (h : y.Initial) : y.Kept := by
  intro n t el hn; rw [h.rx] at hn; simp at hn

/-- What is known of numbers that ask to be acknowledged. -/
structure Y.Comp (y : Y) : Prop where
  all : ∀ n t, (n, t, true) ∈ y.rx → Mem n y.sp.needAck.ranges ∨ y.Confirmed (Reports · n)
  out : y.sp.elicited = false → ∀ n t, (n, t, true) ∈ y.rx → y.Outstanding n ∨ y.Confirmed (Reports · n)
  lost : ∀ i ∈ y.lost, i < y.sent.length

theorem Y.Initial.comp {y : Y} (h : y.Initial) : y.Comp :=
  ⟨fun n t hn => by rw [h.rx] at hn; simp at hn, fun _ n t hn => by rw [h.rx] at hn; simp at hn,
    fun i hi => by rw [h.lost] at hi; simp at hi⟩

theorem comp_step {y : Y} (h : y.Inv) (hc : y.Comp) (hr : y.sp.needAck.len < maxAckRanges) {a : Act}
    (ht : y.OnTime [a]) : (y.step a).Comp := by
  have hext := ext_step y a
  cases a with
  | recv pn el is =>
    cases hs : y.sp.seen.contains pn with
    | true => simp only [Y.step, hs, if_true]; exact hc
    | false =>
      obtain ⟨r, s', a1, a2, a3, a4, a5, st, b2, b3, b4, b5, b6, b7, b8⟩ := recv_spec h (el := el) (is := is) hs
      have hlen : r.ranges.length < maxAckRanges := Nat.lt_of_le_of_lt a5 hr
      have ht := ht.1
      simp only at ht
      refine ⟨fun n t hn => ?_, fun he n t hn => ?_, fun i hi => ?_⟩
      · rw [st] at hn
        rcases List.mem_append.mp hn with hn | hn
        · rcases hc.all n t hn with hm | hc
          · by_cases hall : ∀ f ∈ y.frames is, ∀ k, IsMax k f.ranges.ranges → k < n
            · left; rw [st]; exact b5 hlen n (a4 n hm hall)
            · right
              simp only [Classical.not_forall, Nat.not_lt] at hall
              obtain ⟨f, hf, k, hk, hnk⟩ := hall
              rcases ht f hf n t k hn hk.1 hnk with h1 | h1
              · obtain ⟨t, i, hi, hfi⟩ := frames_mem hf
                rw [st]
                exact ⟨i, t, f, List.mem_append_right _ hi, hfi, h1⟩
              · exact hext.confirmed h1
          · exact .inr (hext.confirmed hc)
        · simp only [List.mem_singleton, Prod.mk.injEq] at hn
          left; rw [st, hn.1]; exact b3
      · rw [st] at hn he
        simp only [b7, Bool.or_eq_false_iff] at he
        rcases List.mem_append.mp hn with hn | hn
        · rcases hc.out he.1 n t hn with h1 | h1
          · left; rw [st]; exact h1
          · exact .inr (hext.confirmed h1)
        · simp only [List.mem_singleton, Prod.mk.injEq] at hn
          exact absurd (hn.2.2.trans he.2) (by simp)
      · rw [st] at hi ⊢; exact hc.lost i hi
  | send required allowed cwnd fits =>
    rcases send_cases y required allowed cwnd fits with ⟨f, hf, hfr⟩ | hf
    · refine ⟨fun n t hn => ?_, fun _ n t hn => ?_, fun i hi => ?_⟩
      · rw [hf] at hn
        rcases hc.all n t hn with h1 | h1
        · left; rw [hf]; exact h1
        · exact .inr (hext.confirmed h1)
      · rw [hf] at hn
        rcases hc.all n t hn with h1 | h1
        · left; rw [hf]
          refine ⟨y.sent.length, y.now, f, fun hi => ?_, by simp, by unfold Reports; rw [hfr]; exact h1⟩
          exact absurd (hc.lost _ hi) (by simp)
        · exact .inr (hext.confirmed h1)
      · rw [hf] at hi ⊢
        have := hc.lost i hi
        simp only [List.length_append]; omega
    · rw [hf]; exact hc
  | lost i =>
    cases hi : y.sent[i]? with
    | none => simp only [Y.step, hi]; exact hc
    | some x =>
      simp only [Y.step, hi]
      refine ⟨hc.all, fun he => absurd he (by simp [Space.lost]), fun j hj => ?_⟩
      rcases List.mem_append.mp hj with hj | hj
      · exact hc.lost j hj
      · simp only [List.mem_singleton] at hj; subst hj; exact (List.getElem?_eq_some_iff.mp hi).1
  | tick d => exact ⟨hc.all, hc.out, hc.lost⟩

theorem comp_run {y : Y} (h : y.Inv) (hc : y.Comp) {l : List Act} (hr : y.Room l) (ht : y.OnTime l) :
    (y.run l).Comp := by
  induction l generalizing y with
  | nil => exact hc
  | cons a t ih => exact ih (inv_step h a) (comp_step h hc hr.1 ⟨ht.1, trivial⟩) hr.2 ht.2

/-- Frames report all that was received up to their largest number. -/
def Y.Cover (y : Y) : Prop := ∀ (i t : Nat) (f : Frame), y.sent[i]? = some (t, f) → ∀ n t k, (n, t, true) ∈ y.rx →
  Reports f k → n ≤ k → Reports f n ∨ y.Confirmed (Reports · n)

theorem cover_step {y : Y} (h : y.Inv) (hc : y.Comp) (hv : y.Cover) {a : Act} (ho : y.Ordered [a]) :
    (y.step a).Cover := by
  have hext := ext_step y a
  cases a with
  | recv pn el is =>
    cases hs : y.sp.seen.contains pn with
    | true => simp only [Y.step, hs, if_true]; exact hv
    | false =>
      obtain ⟨r, s', a1, a2, a3, a4, a5, st, b2, b3, b4, b5, b6, b7, b8⟩ := recv_spec h (el := el) (is := is) hs
      have ho := ho.1
      simp only at ho
      intro i t f hf n t' k hn hk hnk
      rw [st] at hf hn
      rcases List.mem_append.mp hn with hn | hn
      · rcases hv i t f hf n t' k hn hk hnk with h1 | h1
        · exact .inl h1
        · exact .inr (hext.confirmed h1)
      · simp only [List.mem_singleton, Prod.mk.injEq] at hn
        obtain ⟨_, _, _, h2⟩ := (h.sent t f (List.mem_of_getElem? hf)).2.2.1 k hk
        have := ho _ _ _ h2
        omega
  | send required allowed cwnd fits =>
    rcases send_cases y required allowed cwnd fits with ⟨f, hf, hfr⟩ | hf
    · intro i t g hg n t' k hn hk hnk
      rw [hf] at hg hn
      by_cases hi : i < y.sent.length
      · rw [List.getElem?_append_left hi] at hg
        rcases hv i t g hg n t' k hn hk hnk with h1 | h1
        · exact .inl h1
        · exact .inr (hext.confirmed h1)
      · have hi' : i = y.sent.length := by
          have := (List.getElem?_eq_some_iff.mp hg).1
          simp only [List.length_append, List.length_singleton] at this; omega
        subst hi'
        simp only [List.getElem?_concat_length, Option.some.injEq, Prod.mk.injEq] at hg
        obtain ⟨-, rfl⟩ := hg
        rcases hc.all n t' hn with h1 | h1
        · left; unfold Reports; rw [hfr]; exact h1
        · exact .inr (hext.confirmed h1)
    · rw [hf]; exact hv
  | lost i =>
    simp only [Y.step]; split <;> exact hv
  | tick d => exact hv

/-- Numbers that arrive in order are reported in time. -/
theorem onTime {y : Y} (h : y.Inv) (hc : y.Comp) (hv : y.Cover) {l : List Act} (hr : y.Room l)
    (ho : y.Ordered l) : y.OnTime l := by
  induction l generalizing y with
  | nil => trivial
  | cons a t ih =>
    have hnow : y.OnTime [a] := by
      refine ⟨?_, trivial⟩
      cases a with
      | recv pn el is =>
        intro f hf n t k hn hk hnk
        obtain ⟨t', i, -, hfi⟩ := frames_mem hf
        exact hv i t' f hfi n t k hn hk hnk
      | _ => trivial
    exact ⟨hnow.1, ih (inv_step h a) (comp_step h hc hr.1 hnow) (cover_step h hc hv ⟨ho.1, trivial⟩) hr.2 ho.2⟩

theorem Y.Initial.cover {y : Y} (h : y.Initial) : y.Cover := by
  intro i t f _ n t' k hn; rw [h.rx] at hn; simp at hn

end Verif.Ack
