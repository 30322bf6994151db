import Verif.Ack.Ranges

/-!
Invariants of executions: every number to acknowledge was received; the time kept is when the
largest of them arrived.
-/

namespace Verif.Ack
open Verif Verif.Ranges Verif.Packet

/-- A frame as it is sent. -/
structure Sent (f : Frame) : Prop where
  good : Good f.ranges
  some : f.ranges.ranges ≠ []

/-- Acknowledged ACK frames only remove numbers up to their largest. -/
theorem acksAcked_spec {l : List Frame} (hl : ∀ f ∈ l, Sent f) : ∀ {s : Space}, Good s.needAck →
    ∃ r, s.acksAcked l = some { s with needAck := r } ∧ Good r ∧
      (∀ m, Mem m r.ranges → Mem m s.needAck.ranges) ∧
      (∀ m, Mem m s.needAck.ranges → (∀ f ∈ l, ∀ k, IsMax k f.ranges.ranges → k < m) → Mem m r.ranges) ∧
      r.ranges.length ≤ s.needAck.ranges.length := by
  induction l with
  | nil => intro s h; exact ⟨s.needAck, rfl, h, fun _ h => h, fun _ h _ => h, Nat.le_refl _⟩
  | cons f t ih =>
    intro s h
    obtain ⟨hf, hne⟩ := hl f (List.mem_cons_self ..)
    rcases last_spec hf.inv.1 hf.full with ⟨h1, -⟩ | ⟨k, h1, h2⟩
    · exact absurd h1 hne
    · obtain ⟨r1, r2, r3, r4⟩ := removeUntil_spec h.inv k
      obtain ⟨r, e1, e2, e3, e4, e5⟩ := ih (fun f hf => hl f (List.mem_cons_of_mem _ hf))
        (s := { s with needAck := s.needAck.removeUntil k }) (good_remove h k)
      refine ⟨r, ?_, e2, fun m hm => ((r4 m).mp (e3 m hm)).1, fun m hm hk => ?_, Nat.le_trans e5 r3⟩
      · simp only [Space.acksAcked, Space.ackAcked, h1, Option.bind_some]; exact e1
      · exact e4 m ((r4 m).mpr ⟨hm, hk f (List.mem_cons_self ..) k h2⟩)
          (fun f hf => hk f (List.mem_cons_of_mem _ hf))

/-- Recording a number never panics, and keeps the time of the largest number. -/
theorem record_spec {s : Space} (h : Good s.needAck) (pn : Nat) (el : Bool) (now : Nat) :
    ∃ s', s.record pn el now = some s' ∧ Good s'.needAck ∧ Mem pn s'.needAck.ranges ∧
      (∀ m, Mem m s'.needAck.ranges → Mem m s.needAck.ranges ∨ m = pn) ∧
      (s.needAck.ranges.length < maxAckRanges → ∀ m, Mem m s.needAck.ranges → Mem m s'.needAck.ranges) ∧
      (∀ k, IsMax k s'.needAck.ranges →
        (k = pn ∧ s'.largestTime = now) ∨ (IsMax k s.needAck.ranges ∧ s'.largestTime = s.largestTime)) ∧
      s'.elicited = (s.elicited || el) ∧ s'.seen = s.seen.insert pn := by
  obtain ⟨r, p1, p2, p3, p4, p5, p6⟩ := good_push h pn
  unfold Space.record
  rcases last_spec h.inv.1 h.full with ⟨h1, h2⟩ | ⟨k, h1, h2⟩
  · simp only [h2, p1]
    refine ⟨_, rfl, p2, p3, p4, p5, fun k hk => .inl ⟨?_, rfl⟩, rfl, rfl⟩
    rcases p4 k hk.1 with h | h
    · exact absurd h1 (mem_nonempty h)
    · exact h
  · simp only [h1, p1]
    refine ⟨_, rfl, p2, p3, p4, p5, fun m hm => ?_, rfl, rfl⟩
    simp only [below, decide_eq_true_eq]
    by_cases hlt : k < pn
    · rw [if_pos hlt]
      refine .inl ⟨?_, rfl⟩
      rcases p4 m hm.1 with h | h
      · have := h2.2 m h; have := hm.2 pn p3; omega
      · exact h
    · rw [if_neg hlt]
      refine .inr ⟨?_, rfl⟩
      have hk := hm.2 k (p6 k h2 (by omega))
      have : m = k := by
        rcases p4 m hm.1 with h | h
        · have := h2.2 m h; omega
        · omega
      exact this ▸ h2

/-- The number was processed by the time `t`. -/
def Y.Got (y : Y) (n t : Nat) : Prop := ∃ t' el, t' ≤ t ∧ (n, t', el) ∈ y.rx

structure Y.Inv (y : Y) : Prop where
  good : Good y.sp.needAck
  sound : ∀ n, Mem n y.sp.needAck.ranges → y.Got n y.now
  time : ∀ n, IsMax n y.sp.needAck.ranges → y.sp.largestTime ≤ y.now ∧ ∃ el, (n, y.sp.largestTime, el) ∈ y.rx
  sent : ∀ t f, (t, f) ∈ y.sent → t ≤ y.now ∧ Sent f ∧ (∀ n, Mem n f.ranges.ranges → y.Got n t) ∧
    (∀ n, IsMax n f.ranges.ranges → ∃ t' el, t' ≤ t ∧ (n, t', el) ∈ y.rx ∧
      f.delay = (t - t') / 2 ^ y.exponent)
  panicked : y.panicked = false

theorem Y.Initial.inv {y : Y} (h : y.Initial) : y.Inv := by
  have hn : ∀ n, ¬ Mem n y.sp.needAck.ranges := by
    intro n; rw [h.sp]; exact mem_nil n
  exact ⟨by rw [h.sp]; exact good_new, fun n hm => absurd hm (hn n), fun n hm => absurd hm.1 (hn n),
    fun t f hf => absurd hf (by rw [h.sent]; simp), h.panicked⟩

theorem frames_mem {y : Y} {is : List Nat} {f : Frame} (hf : f ∈ y.frames is) :
    ∃ t i, i ∈ is ∧ y.sent[i]? = some (t, f) := by
  simp only [Y.frames, List.mem_map, List.mem_filterMap] at hf
  obtain ⟨⟨t, f'⟩, ⟨i, hi, h1⟩, rfl⟩ := hf
  exact ⟨t, i, hi, h1⟩

theorem frames_sent {y : Y} (h : y.Inv) {is : List Nat} : ∀ f ∈ y.frames is, Sent f := by
  intro f hf
  obtain ⟨t, i, -, h1⟩ := frames_mem hf
  exact (h.sent t f (List.mem_of_getElem? h1)).2.1

/-- All that happens when a packet arrives that was not seen before. -/
theorem recv_spec {y : Y} (h : y.Inv) {pn : Nat} {el : Bool} {is : List Nat} (hs : y.sp.seen.contains pn = false) :
    ∃ r s', y.sp.acksAcked (y.frames is) = some { y.sp with needAck := r } ∧ Good r ∧
      (∀ m, Mem m r.ranges → Mem m y.sp.needAck.ranges) ∧
      (∀ m, Mem m y.sp.needAck.ranges → (∀ f ∈ y.frames is, ∀ k, IsMax k f.ranges.ranges → k < m) → Mem m r.ranges) ∧
      r.ranges.length ≤ y.sp.needAck.ranges.length ∧
      y.step (.recv pn el is) = { y with sp := s', rx := y.rx ++ [(pn, y.now, el)], acked := y.acked ++ is } ∧
      Good s'.needAck ∧ Mem pn s'.needAck.ranges ∧
      (∀ m, Mem m s'.needAck.ranges → Mem m r.ranges ∨ m = pn) ∧
      (r.ranges.length < maxAckRanges → ∀ m, Mem m r.ranges → Mem m s'.needAck.ranges) ∧
      (∀ k, IsMax k s'.needAck.ranges →
        (k = pn ∧ s'.largestTime = y.now) ∨ (IsMax k r.ranges ∧ s'.largestTime = y.sp.largestTime)) ∧
      s'.elicited = (y.sp.elicited || el) ∧ s'.seen = y.sp.seen.insert pn := by
  obtain ⟨r, a1, a2, a3, a4, a5⟩ := acksAcked_spec (frames_sent h (is := is)) h.good
  obtain ⟨s', b1, b2, b3, b4, b5, b6, b7, b8⟩ := record_spec (s := { y.sp with needAck := r }) a2 pn el y.now
  refine ⟨r, s', a1, a2, a3, a4, a5, ?_, b2, b3, b4, b5, b6, b7, b8⟩
  simp only [Y.step, Space.recv, hs, Bool.false_eq_true, if_false, a1, Option.bind_some, b1]

/-- A number stays the largest as long as it stays. -/
theorem max_sub {k l : List Rng} {m : Nat} (hm : IsMax m k) (hsub : ∀ n, Mem n k → Mem n l)
    (hbig : ∀ n, Mem n l → Mem n k ∨ ∀ j, Mem j k → n < j) : IsMax m l := by
  refine ⟨hsub m hm.1, fun n hn => ?_⟩
  rcases hbig n hn with h | h
  · exact hm.2 n h
  · exact Nat.le_of_lt (h m hm.1)

/-- Numbers removed when ACK frames are acknowledged are below those that stay. -/
theorem acked_low {l : List Frame} : ∀ {s s' : Space}, Good s.needAck → s.acksAcked l = some s' →
    ∀ n, Mem n s.needAck.ranges → Mem n s'.needAck.ranges ∨ ∀ j, Mem j s'.needAck.ranges → n < j := by
  induction l with
  | nil => intro s s' h e n hn; simp only [Space.acksAcked, Option.some.injEq] at e; subst e; exact .inl hn
  | cons f t ih =>
    intro s s' h e n hn
    simp only [Space.acksAcked, Space.ackAcked] at e
    split at e
    · simp at e
    · simp only [Option.bind_some] at e; exact ih h e n hn
    · rename_i k _
      simp only [Option.bind_some] at e
      have r4 := (removeUntil_spec h.inv k).2.2.2
      have hsub : ∀ {l : List Frame} {s s' : Space}, Good s.needAck → s.acksAcked l = some s' →
          ∀ m, Mem m s'.needAck.ranges → Mem m s.needAck.ranges := by
        intro l
        induction l with
        | nil => intro s s' h e m hm; simp only [Space.acksAcked, Option.some.injEq] at e; subst e; exact hm
        | cons f t ih =>
          intro s s' h e m hm
          simp only [Space.acksAcked, Space.ackAcked] at e
          split at e
          · simp at e
          · simp only [Option.bind_some] at e; exact ih h e m hm
          · simp only [Option.bind_some] at e
            exact (((removeUntil_spec h.inv _).2.2.2 m).mp (ih (s := { s with needAck := s.needAck.removeUntil _ })
              (good_remove h _) e m hm)).1
      by_cases hk : k < n
      · exact ih (s := { s with needAck := s.needAck.removeUntil k }) (good_remove h k) e n ((r4 n).mpr ⟨hn, hk⟩)
      · refine .inr fun j hj => ?_
        have := ((r4 j).mp (hsub (s := { s with needAck := s.needAck.removeUntil k }) (good_remove h k) e j hj)).2
        omega

theorem inv_step {y : Y} (h : y.Inv) (a : Act) : (y.step a).Inv := by
  cases a with
  | recv pn el is =>
    cases hs : y.sp.seen.contains pn with
    | true => simp only [Y.step, hs, if_true]; exact h
    | false =>
      obtain ⟨r, s', a1, a2, a3, a4, a5, st, b2, b3, b4, b5, b6, b7, b8⟩ := recv_spec h (el := el) (is := is) hs
      rw [st]
      have hgot : ∀ {n t}, y.Got n t → ∃ t' el', t' ≤ t ∧ (n, t', el') ∈ y.rx ++ [(pn, y.now, el)] := by
        rintro n t ⟨t', e, h1, h2⟩; exact ⟨t', e, h1, List.mem_append_left _ h2⟩
      refine ⟨b2, fun n hn => ?_, fun n hn => ?_, fun t f hf => ?_, h.panicked⟩
      · rcases b4 n hn with h1 | rfl
        · exact hgot (h.sound n (a3 n h1))
        · exact ⟨y.now, el, Nat.le_refl _, by simp⟩
      · rcases b6 n hn with ⟨rfl, h2⟩ | ⟨h1, h2⟩
        · simp only; rw [h2]; exact ⟨Nat.le_refl _, el, by simp⟩
        · have := h.time n (max_sub h1 a3 (fun n hn => acked_low h.good a1 n hn))
          simp only; rw [h2]
          exact ⟨this.1, this.2.elim fun e he => ⟨e, List.mem_append_left _ he⟩⟩
      · obtain ⟨f1, f2, f3, f4⟩ := h.sent t f hf
        refine ⟨f1, f2, fun n hn => hgot (f3 n hn), fun n hn => ?_⟩
        obtain ⟨t', e, g1, g2, g3⟩ := f4 n hn
        exact ⟨t', e, g1, List.mem_append_left _ g2, g3⟩
  | send required allowed cwnd fits =>
    have same : (y.sp.send required allowed cwnd fits y.exponent y.now).2.needAck = y.sp.needAck ∧
        (y.sp.send required allowed cwnd fits y.exponent y.now).2.largestTime = y.sp.largestTime := by
      unfold Space.send; split
      · split <;> exact ⟨rfl, rfl⟩
      · exact ⟨rfl, rfl⟩
    have frame : ∀ f, (y.sp.send required allowed cwnd fits y.exponent y.now).1 = some f →
        f = { delay := (y.now - y.sp.largestTime) / 2 ^ y.exponent, ranges := y.sp.needAck } ∧ 0 < y.sp.needAck.len := by
      intro f; unfold Space.send; split
      · rename_i hc
        split
        · intro hf; simp only [Option.some.injEq] at hf; exact ⟨hf.symm, hc.1⟩
        · simp
      · simp
    simp only [Y.step]
    generalize y.sp.send required allowed cwnd fits y.exponent y.now = o at same frame
    obtain ⟨o, s⟩ := o
    simp only at same frame
    cases o with
    | none =>
      simp only
      exact ⟨same.1 ▸ h.good, fun n hn => h.sound n (same.1 ▸ hn), fun n hn => by
        have := h.time n (same.1 ▸ hn); simp only; rw [same.2]; exact this, h.sent, h.panicked⟩
    | some f =>
      obtain ⟨hf, hlen⟩ := frame f rfl
      simp only
      refine ⟨same.1 ▸ h.good, fun n hn => h.sound n (same.1 ▸ hn), fun n hn => by
        have := h.time n (same.1 ▸ hn); simp only; rw [same.2]; exact this, fun t g hg => ?_, h.panicked⟩
      rcases List.mem_append.mp hg with hg | hg
      · exact h.sent t g hg
      · simp only [List.mem_singleton, Prod.mk.injEq] at hg
        obtain ⟨rfl, rfl⟩ := hg
        rw [hf]
        refine ⟨Nat.le_refl _, ⟨h.good, ?_⟩, h.sound, fun n hn => ?_⟩
        · intro h0; simp only at h0; rw [RangeSet.len, h0] at hlen; simp at hlen
        · obtain ⟨t1, e, t2⟩ := h.time n hn
          exact ⟨_, e, t1, t2, rfl⟩
  | lost i =>
    simp only [Y.step]
    split
    · exact h
    · exact ⟨h.good, h.sound, h.time, h.sent, h.panicked⟩
  | tick d =>
    refine ⟨h.good, fun n hn => ?_, fun n hn => ?_, fun t f hf => ?_, h.panicked⟩
    · obtain ⟨t', e, h1, h2⟩ := h.sound n hn
      exact ⟨t', e, by simp only [Y.step]; omega, h2⟩
    · obtain ⟨h1, h2⟩ := h.time n hn
      exact ⟨by simp only [Y.step]; omega, h2⟩
    · obtain ⟨f1, f2⟩ := h.sent t f hf
      exact ⟨by simp only [Y.step]; omega, f2⟩

theorem inv_run {y : Y} (h : y.Inv) (l : List Act) : (y.run l).Inv := by
  induction l generalizing y with
  | nil => exact h
  | cons a t ih => exact ih (inv_step h a)

theorem exponent_step (y : Y) (a : Act) : (y.step a).exponent = y.exponent := by
  cases a <;> simp only [Y.step]
  · split
    · rfl
    · split <;> rfl
  · split <;> rfl
  · split <;> rfl

theorem exponent_run (y : Y) (l : List Act) : (y.run l).exponent = y.exponent := by
  induction l generalizing y with
  | nil => rfl
  | cons a t ih => exact (ih (y.step a)).trans (exponent_step y a)

end Verif.Ack
