import Verif.Ranges.Spec

/-! # C07 — capacity bounds memory, and the set only ever forgets -/

namespace Verif.C07
open Verif Ranges

/-- **C07, bound and no invention.** For every capacity and history that does
not panic: no more ranges than the capacity are stored, and every reported
number really results from the history (it was inserted and not removed). -/
theorem bounded_and_sound (cap : Nat) (ops : List Op) (hok : ∀ op ∈ ops, op.Ok)
    (st : RangeSet) (hr : run (.new cap) ops = some st) :
    st.len ≤ cap ∧ ∀ n, n ∈ st.flatten → effect (fun _ => False) ops n := by
  have h := run_inv (inv_new cap) hok hr
  refine ⟨?_, fun n hn => ?_⟩
  · have := h.1.2.1; rw [h.2] at this; exact this
  · have := run_sub (inv_new cap) hok hr n ((mem_flatten _ _).mp hn)
    exact effect_mono (fun n hn => by simp [RangeSet.new, RangeSet.ranges] at hn) ops n this

/-- **C07, never panics.** Capacities of at least four (quiche uses 68 for
received packet numbers and no limit elsewhere) never panic. -/
theorem never_panics (cap : Nat) (hcap : 4 ≤ cap) (ops : List Op) (hok : ∀ op ∈ ops, op.Ok) :
    ∃ st, run (.new cap) ops = some st :=
  run_isSome (inv_new cap) hok hcap

/-- **C07, what is forgotten.** An insertion into any reachable set either keeps
everything, or the set was full, the new range touched no stored range, and
exactly the smallest stored range is forgotten. -/
theorem forgets_smallest_stored (cap : Nat) (ops : List Op) (hok : ∀ op ∈ ops, op.Ok)
    (st st' : RangeSet) (hr : run (.new cap) ops = some st) (s e : Nat) (hse : s ≤ e)
    (hi : st.insert (s, e) = some st') :
    (∀ n, n ∈ st'.flatten ↔ n ∈ st.flatten ∨ (s ≤ n ∧ n < e)) ∨
    (st.len = cap ∧ (∀ r ∈ st.ranges, e < r.1 ∨ r.2 < s) ∧
      ∃ d ∈ st.ranges, (∀ r ∈ st.ranges, d.1 ≤ r.1) ∧
        ∀ n, n ∈ st'.flatten ↔ (n ∈ st.flatten ∨ (s ≤ n ∧ n < e)) ∧ ¬ (d.1 ≤ n ∧ n < d.2)) := by
  have h := run_inv (inv_new cap) hok hr
  obtain ⟨_, _, h3⟩ := insert_spec h.1 hse hi
  rcases h3 with h3 | ⟨h4, _, h5, x, t, h6, h7⟩
  · left
    intro n
    rw [mem_flatten, mem_flatten, h3, ins_mem hse h.1.1, or_comm]
  · right
    refine ⟨?_, ?_, x, by simp [h6], ?_, fun n => ?_⟩
    · rw [h.2] at h4; exact h4
    · intro r hr
      have := h5 r hr
      simp only [Touch] at this; omega
    · intro r hr
      have hn := h.1.1
      rw [h6] at hr hn
      rw [norm_cons] at hn
      simp only [List.mem_cons] at hr
      rcases hr with rfl | hr
      · exact Nat.le_refl _
      · have := hn.2.1 r hr; omega
    · rw [mem_flatten, mem_flatten]; exact h7 n

/-- A full set forgets its smallest range. -/
example : ((run (.new 4) [.insert 1 2, .insert 4 6, .insert 8 9, .insert 20 22,
    .insert 12 14]).map RangeSet.ranges) = some [(4, 6), (8, 9), (12, 14), (20, 22)] := by decide

/-- The documentation of `insert` (ranges.rs:110-112) says the smallest range is
removed *following* the insertion. That is not what happens when the new range is
the smallest: it is kept and the next one is forgotten. -/
theorem documented_order_is_false :
    ¬ (∀ (cap : Nat) (ops : List Op), 4 ≤ cap → (∀ op ∈ ops, op.Ok) →
      ∀ st st' : RangeSet, run (.new cap) ops = some st → st.len = cap →
      ∀ s e, s < e → (∀ r ∈ st.ranges, e < r.1) → st.insert (s, e) = some st' →
      st'.ranges = st.ranges) := by
  intro h
  have := h 4 [.insert 4 6, .insert 8 9, .insert 12 14, .insert 20 22] (by decide)
    (by intro op hop; simp at hop; rcases hop with rfl | rfl | rfl | rfl <;> simp [Op.Ok])
    (.btree [(4, 6), (8, 9), (12, 14), (20, 22)] 4) (.btree [(1, 2), (8, 9), (12, 14), (20, 22)] 4)
    (by decide) (by decide) 1 2 (by decide) (by decide) (by decide)
  simp [RangeSet.ranges] at this

/-- Capacities one to three can panic (ranges.rs:203-206: the position is
decremented below zero) and capacity zero always does (ranges.rs:231). -/
theorem small_capacity_panics :
    run (.new 3) [.insert 10 11, .insert 20 21, .insert 30 31, .insert 1 2] = none ∧
    run (.new 0) [.insert 1 2] = none := by decide

end Verif.C07
