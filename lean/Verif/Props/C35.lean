import Verif.Props.C34

/-!
# C35: No packet number is ever processed twice

Packet numbers arrive in any order and with repetitions; those the filter does not
contain are processed and inserted. Taken alone, the filter forgets how far it has to
shift when numbers jump by 2^32 or more (`filter_alone`); on a connection they cannot,
since they are decoded relative to the largest number received (`fresh_accepted`).
-/

namespace Verif.C35
open Verif Verif.Packet

/-- The filter and the numbers processed so far, latest first. -/
structure St where
  w : Window := {}
  seen : List Nat := []

/-- A packet arrives. -/
def arrive (s : St) (pn : Nat) : St :=
  if s.w.contains pn then s else { w := s.w.insert pn, seen := pn :: s.seen }

def run (s : St) (pns : List Nat) : St := pns.foldl arrive s

/-- `Window::upper` away from the end of 64 bits. -/
theorem upper_eq {w : Window} (h : w.lower < 2 ^ 63) : w.upper = w.lower + 127 := by
  unfold Window.upper; omega

theorem bit_or (x i j : Nat) : (x ||| (1 <<< i)).testBit j = (x.testBit j || decide (i = j)) := by
  rw [Nat.testBit_or, Nat.one_shiftLeft, Nat.testBit_two_pow]

/-- Every processed number is below the window or marked in it; the window ends at
the largest processed number or is the initial one. -/
structure Inv (s : St) : Prop where
  low : s.w.lower < 2 ^ 62
  seen : ∀ x ∈ s.seen, x < s.w.lower ∨ (x ≤ s.w.lower + 127 ∧ s.w.window.testBit (s.w.lower + 127 - x))
  top : s.w.lower = 0 ∨ s.w.lower + 127 ∈ s.seen
  le : ∀ x ∈ s.seen, x ≤ s.w.lower + 127
  nodup : s.seen.Nodup

theorem contains_iff {s : St} (h : Inv s) (pn : Nat) : s.w.contains pn = true ↔
    pn < s.w.lower ∨ (pn ≤ s.w.lower + 127 ∧ s.w.window.testBit (s.w.lower + 127 - pn)) := by
  have := h.low
  unfold Window.contains
  rw [upper_eq (by omega), bit_iff]
  split
  · simp only [Bool.false_eq_true, false_iff]; omega
  split
  · simp only [true_iff]; omega
  · constructor
    · intro h; exact .inr ⟨by omega, h⟩
    · rintro (h | h)
      · omega
      · exact h.2

theorem inv_arrive {s : St} (h : Inv s) {pn : Nat} (hp : pn < 2 ^ 62) : Inv (arrive s pn) := by
  unfold arrive
  by_cases hc : s.w.contains pn
  · rw [if_pos hc]; exact h
  rw [if_neg hc]
  have hn := mt (contains_iff h pn).mpr hc
  have hfresh : pn ∉ s.seen := fun hm => hn (h.seen pn hm)
  have hlow := h.low
  have hu := upper_eq (w := s.w) (by omega)
  have hnl : ¬ pn < s.w.lower := fun hh => hn (.inl hh)
  have hnd : (pn :: s.seen).Nodup := List.nodup_cons.mpr ⟨hfresh, h.nodup⟩
  unfold Window.insert
  rw [if_neg hnl]
  by_cases hg : pn > s.w.upper
  · rw [if_pos hg]
    rw [hu] at hg
    simp only
    have e1 : s.w.lower + (pn - s.w.upper) = pn - 127 := by omega
    rw [hu] at e1 ⊢
    rw [e1]
    have hu2 : ({ lower := pn - 127, window := Window.shl s.w.window (pn - (s.w.lower + 127)) } : Window).upper = pn := by
      rw [upper_eq (by simp only; omega)]; simp only; omega
    rw [hu2]
    refine ⟨by simp only; omega, ?_, .inr (by simp only; exact List.mem_cons.mpr (.inl (by omega))), ?_, hnd⟩
    · simp only
      intro x hx
      rcases List.mem_cons.mp hx with rfl | hx
      · right
        refine ⟨by omega, ?_⟩
        rw [bit_or]
        simp; right; omega
      · have hle := h.le x hx
        by_cases hxl : x < pn - 127
        · exact .inl hxl
        · right
          refine ⟨by omega, ?_⟩
          rcases h.seen x hx with h1 | ⟨h1, h2⟩
          · omega
          rw [bit_or]
          have hd : (pn - (s.w.lower + 127)) % 2 ^ 32 = pn - (s.w.lower + 127) := Nat.mod_eq_of_lt (by omega)
          unfold Window.shl
          simp only
          rw [hd, if_pos (by omega), Nat.testBit_mod_two_pow, Nat.testBit_shiftLeft]
          have e2 : pn - 127 + 127 - x - (pn - (s.w.lower + 127)) = s.w.lower + 127 - x := by omega
          rw [e2, h2]
          simp; left; omega
    · simp only
      intro x hx
      rcases List.mem_cons.mp hx with rfl | hx
      · omega
      · have := h.le x hx; omega
  · rw [if_neg hg]
    rw [hu] at hg
    dsimp only
    rw [hu]
    refine ⟨hlow, ?_, ?_, ?_, hnd⟩
    · simp only
      intro x hx
      rcases List.mem_cons.mp hx with rfl | hx
      · right
        refine ⟨by omega, ?_⟩
        rw [bit_or]; simp
      · rcases h.seen x hx with h1 | ⟨h1, h2⟩
        · exact .inl h1
        · right; refine ⟨h1, ?_⟩; rw [bit_or, h2]; simp
    · simp only
      rcases h.top with h1 | h1
      · exact .inl h1
      · exact .inr (List.mem_cons_of_mem _ h1)
    · simp only
      intro x hx
      rcases List.mem_cons.mp hx with rfl | hx
      · omega
      · exact h.le x hx

theorem inv_init : Inv {} := ⟨by decide, by simp, .inl rfl, by simp, by simp⟩

theorem inv_run (pns : List Nat) : ∀ s, Inv s → (∀ p ∈ pns, p < 2 ^ 62) → Inv (run s pns) := by
  induction pns with
  | nil => intro s h _; exact h
  | cons p t ih =>
    intro s h hp
    exact ih _ (inv_arrive h (hp p (by simp))) (fun q hq => hp q (by simp [hq]))

/-- Over any sequence of arrivals, no packet number is processed twice. -/
theorem at_most_once (pns : List Nat) (h : ∀ p ∈ pns, p < 2 ^ 62) : (run {} pns).seen.Nodup :=
  (inv_run pns {} inv_init h).nodup

/-- A number processed before is refused, no matter how much later. -/
theorem duplicates_refused (pns : List Nat) (h : ∀ p ∈ pns, p < 2 ^ 62) (p : Nat)
    (hp : p ∈ (run {} pns).seen) : (run {} pns).w.contains p = true :=
  (contains_iff (inv_run pns {} inv_init h) p).mpr ((inv_run pns {} inv_init h).seen p hp)

/-- Nothing but what arrived is counted as processed. -/
theorem seen_arrived (pns : List Nat) : ∀ s, ∀ p ∈ (run s pns).seen, p ∈ s.seen ∨ p ∈ pns := by
  induction pns with
  | nil => intro s p hp; exact .inl hp
  | cons q t ih =>
    intro s p hp
    rcases ih (arrive s q) p hp with h | h
    · unfold arrive at h
      split at h
      · exact .inl h
      · rcases List.mem_cons.mp h with rfl | h
        · exact .inr (by simp)
        · exact .inl h
    · exact .inr (by simp [h])

/-- All jumps beyond the window are below 2^32: no arrival is that far above the
numbers processed before it (or above the initial window). -/
def SmallJumps (s : St) : List Nat → Prop
  | [] => True
  | p :: t => (p < 127 + 2 ^ 32 ∨ ∃ x ∈ s.seen, p < x + 2 ^ 32) ∧ SmallJumps (arrive s p) t

/-- Marks stand for processed numbers only. -/
def Marks (s : St) : Prop := ∀ i, s.w.window.testBit i → i ≤ s.w.lower + 127 ∧ s.w.lower + 127 - i ∈ s.seen

theorem marks_arrive {s : St} (h : Inv s) (hm : Marks s) {pn : Nat} (hp : pn < 2 ^ 62)
    (hj : pn < 127 + 2 ^ 32 ∨ ∃ x ∈ s.seen, pn < x + 2 ^ 32) : Marks (arrive s pn) := by
  unfold arrive
  by_cases hc : s.w.contains pn
  · rw [if_pos hc]; exact hm
  rw [if_neg hc]
  have hn := mt (contains_iff h pn).mpr hc
  have hlow := h.low
  have hu := upper_eq (w := s.w) (by omega)
  have hnl : ¬ pn < s.w.lower := fun hh => hn (.inl hh)
  unfold Window.insert
  rw [if_neg hnl]
  by_cases hg : pn > s.w.upper
  · rw [if_pos hg]
    rw [hu] at hg
    simp only
    have e1 : s.w.lower + (pn - s.w.upper) = pn - 127 := by omega
    rw [hu] at e1 ⊢
    rw [e1]
    have hu2 : ({ lower := pn - 127, window := Window.shl s.w.window (pn - (s.w.lower + 127)) } : Window).upper = pn := by
      rw [upper_eq (by simp only; omega)]; simp only; omega
    rw [hu2]
    have hsmall : pn - (s.w.lower + 127) < 2 ^ 32 := by
      rcases hj with h1 | ⟨x, hx, h1⟩
      · omega
      · have := h.le x hx; omega
    intro i hi
    simp only at hi ⊢
    rw [bit_or] at hi
    rw [show pn - 127 + 127 = pn by omega]
    simp only [Nat.sub_self, Bool.or_eq_true, decide_eq_true_eq] at hi
    rcases hi with hi | hi
    · unfold Window.shl at hi
      simp only at hi
      rw [Nat.mod_eq_of_lt hsmall] at hi
      split at hi
      · rw [Nat.testBit_mod_two_pow, Nat.testBit_shiftLeft] at hi
        simp only [Bool.and_eq_true, decide_eq_true_eq] at hi
        obtain ⟨_, h2, h3⟩ := hi
        have := hm _ h3
        refine ⟨by omega, List.mem_cons_of_mem _ ?_⟩
        have e : pn - i = s.w.lower + 127 - (i - (pn - (s.w.lower + 127))) := by omega
        rw [e]; exact this.2
      · simp at hi
    · subst hi; exact ⟨by omega, by simp⟩
  · rw [if_neg hg]
    rw [hu] at hg
    dsimp only
    rw [hu]
    intro i hi
    simp only at hi ⊢
    rw [bit_or] at hi
    simp only [Bool.or_eq_true, decide_eq_true_eq] at hi
    rcases hi with hi | hi
    · exact ⟨(hm i hi).1, List.mem_cons_of_mem _ (hm i hi).2⟩
    · subst hi
      refine ⟨by omega, List.mem_cons.mpr (.inl (by omega))⟩

theorem marks_run (pns : List Nat) : ∀ s, Inv s → Marks s → (∀ p ∈ pns, p < 2 ^ 62) → SmallJumps s pns →
    Marks (run s pns) := by
  induction pns with
  | nil => intro s _ h _ _; exact h
  | cons p t ih =>
    intro s hi h hp hj
    exact ih _ (inv_arrive hi (hp p (by simp))) (marks_arrive hi h (hp p (by simp)) hj.1)
      (fun q hq => hp q (by simp [hq])) hj.2

/-- If no arrival jumps by 2^32, only numbers processed before, or at least 128 below the largest
one, are refused. -/
theorem filter_fresh (pns : List Nat) (h : ∀ p ∈ pns, p < 2 ^ 62) (hj : SmallJumps {} pns) (p : Nat)
    (hc : (run {} pns).w.contains p = true) :
    p ∈ (run {} pns).seen ∨ ∃ x ∈ (run {} pns).seen, p + 128 ≤ x := by
  have hi := inv_run pns {} inv_init h
  have hm := marks_run pns {} inv_init (by intro i hi; simp at hi) h hj
  rcases (contains_iff hi p).mp hc with h1 | ⟨h1, h2⟩
  · rcases hi.top with h3 | h3
    · omega
    · exact .inr ⟨_, h3, by omega⟩
  · have := (hm _ h2).2
    rw [show (run {} pns).w.lower + 127 - ((run {} pns).w.lower + 127 - p) = p by omega] at this
    exact .inl this

/-- After a jump of 2^32 the amount of the shift is cut to 32 bits: a number that was
never seen is refused although it lies in the window. -/
theorem filter_alone : ¬ ∀ (pns : List Nat), (∀ p ∈ pns, p < 2 ^ 62) → ∀ p,
    (run {} pns).w.contains p = true → p ∈ (run {} pns).seen ∨ ∃ x ∈ (run {} pns).seen, p + 128 ≤ x := by
  intro h
  have h1 := h [0, 127 + 2 ^ 32] (by decide) (2 ^ 32) (by decide)
  have e : (run {} [0, 127 + 2 ^ 32]).seen = [127 + 2 ^ 32, 0] := by decide
  rw [e] at h1
  simp at h1

/-! ### On a connection -/

/-- The receiving side of a packet number space (lib.rs:3254-3258, 3323-3326,
3752-3760): filter and largest number processed. -/
structure Rx where
  s : St := {}
  largest : Nat := 0

/-- An authentic packet with packet number bytes of value `t` in `n` bytes. -/
def Rx.packet (r : Rx) (t n : Nat) : Rx :=
  let pn := decodePktNum r.largest t n
  if r.s.w.contains pn then r else { s := arrive r.s pn, largest := max r.largest pn }

/-- The packet numbers decoded. -/
def Rx.numbers (r : Rx) : List (Nat × Nat) → List Nat
  | [] => []
  | (t, n) :: l => decodePktNum r.largest t n :: (r.packet t n).numbers l

def Rx.run (r : Rx) (l : List (Nat × Nat)) : Rx := l.foldl (fun r p => r.packet p.1 p.2) r

theorem rx_run (l : List (Nat × Nat)) : ∀ r : Rx, (r.run l).s = C35.run r.s (r.numbers l) := by
  induction l with
  | nil => intro r; rfl
  | cons p l ih =>
    intro r
    obtain ⟨t, n⟩ := p
    have e : (r.packet t n).s = arrive r.s (decodePktNum r.largest t n) := by
      unfold Rx.packet
      dsimp only
      split
      · next h => unfold arrive; rw [if_pos h]
      · rfl
    show ((r.packet t n).run l).s = C35.run (arrive r.s _) ((r.packet t n).numbers l)
    rw [ih, e]

theorem rx_jumps (l : List (Nat × Nat)) : ∀ r : Rx, (r.largest = 0 ∨ r.largest ∈ r.s.seen) → r.largest < 2 ^ 62 →
    (∀ p ∈ l, 1 ≤ p.2 ∧ p.2 ≤ 4 ∧ p.1 < 256 ^ p.2) → (∀ p ∈ r.numbers l, p < 2 ^ 62) →
    SmallJumps r.s (r.numbers l) := by
  induction l with
  | nil => intro r _ _ _ _; exact trivial
  | cons p l ih =>
    intro r h1 h2 h3 h4
    obtain ⟨t, n⟩ := p
    have hp := h3 (t, n) (by simp)
    obtain ⟨_, hd, _⟩ := C34.nearest r.largest t n h2 ⟨hp.1, hp.2.1⟩ hp.2.2
    have hlt := h4 (decodePktNum r.largest t n) (by simp [Rx.numbers])
    have hw : 256 ^ n ≤ 2 ^ 32 := Nat.le_trans (Nat.pow_le_pow_right (by decide) hp.2.1) (by decide)
    have e : (r.packet t n).s = arrive r.s (decodePktNum r.largest t n) := by
      unfold Rx.packet
      dsimp only
      split
      · next h => unfold arrive; rw [if_pos h]
      · rfl
    refine ⟨?_, ?_⟩
    · rcases hd with hd | hd
      · rcases h1 with h1 | h1
        · left; omega
        · exact .inr ⟨_, h1, by omega⟩
      · left; omega
    · rw [← e]
      refine ih (r.packet t n) ?_ ?_ (fun p hp => h3 p (by simp [hp])) (fun p hp => h4 p (by simp [Rx.numbers, hp]))
      · unfold Rx.packet
        dsimp only
        split
        · exact h1
        · next hc =>
          dsimp only
          unfold arrive
          rw [if_neg hc]
          dsimp only
          by_cases hm : decodePktNum r.largest t n ≤ r.largest
          · rw [Nat.max_eq_left hm]
            rcases h1 with h1 | h1
            · exact .inl h1
            · exact .inr (List.mem_cons_of_mem _ h1)
          · rw [Nat.max_eq_right (by omega)]; exact .inr (by simp)
      · unfold Rx.packet
        dsimp only
        split
        · exact h2
        · dsimp only; omega

/-- On a connection no packet number is processed twice. -/
theorem processed_once (l : List (Nat × Nat)) (hn : ∀ p ∈ Rx.numbers {} l, p < 2 ^ 62) :
    (Rx.run {} l).s.seen.Nodup := by
  rw [rx_run]; exact at_most_once _ hn

/-- On a connection a packet is refused only if its number was processed before or is
at least 128 below the largest one. -/
theorem fresh_accepted (l : List (Nat × Nat)) (hl : ∀ p ∈ l, 1 ≤ p.2 ∧ p.2 ≤ 4 ∧ p.1 < 256 ^ p.2)
    (hn : ∀ p ∈ Rx.numbers {} l, p < 2 ^ 62) (p : Nat) (hc : (Rx.run {} l).s.w.contains p = true) :
    p ∈ (Rx.run {} l).s.seen ∨ ∃ x ∈ (Rx.run {} l).s.seen, p + 128 ≤ x := by
  rw [rx_run] at hc ⊢
  exact filter_fresh _ hn (rx_jumps l {} (.inl rfl) (by decide) hl hn) p hc

/-! ### Concrete cases -/

/-- Numbers 5, 3, 127, 200, 259, 200 again and 330 in one byte each. -/
example : (Rx.run {} [(5, 1), (3, 1), (127, 1), (200, 1), (3, 1), (200, 1), (330 % 256, 1)]).s.seen =
    [330, 259, 200, 127, 3, 5] := by decide
example : Rx.numbers {} [(5, 1), (3, 1), (127, 1), (200, 1), (3, 1), (200, 1), (330 % 256, 1)] =
    [5, 3, 127, 200, 259, 200, 330] := by decide

/-- Out of order, repeated, and too old. -/
example : (run {} [5, 3, 5, 200, 3, 72, 73, 200, 73]).seen = [73, 200, 3, 5] := by decide
example : SmallJumps {} [5, 3, 5, 200, 3, 72, 73, 200, 73] := by
  refine ⟨.inl ?_, .inl ?_, .inl ?_, .inl ?_, .inl ?_, .inl ?_, .inl ?_, .inl ?_, .inl ?_, trivial⟩ <;> decide

end Verif.C35
