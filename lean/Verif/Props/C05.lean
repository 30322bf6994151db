import Verif.Ranges.Spec

/-! # C05 — a range set is exactly the union of what was inserted -/

namespace Verif.C05
open Verif Ranges

/-- **C05.** Inserting any list of ranges, in any order, into an empty set whose
capacity is not exceeded never panics, and afterwards the set lists a number
exactly when one of the inserted ranges contains it. -/
theorem contains_iff_inserted (cap : Nat) (items : List Rng)
    (hok : ∀ r ∈ items, r.1 ≤ r.2) (hcap : items.length ≤ cap) :
    ∃ st, run (.new cap) (items.map (fun r => .insert r.1 r.2)) = some st ∧
      ∀ n, n ∈ st.flatten ↔ ∃ r ∈ items, r.1 ≤ n ∧ n < r.2 := by
  obtain ⟨st, h1, h2⟩ := run_exact (inv_new cap)
    (ops := items.map (fun r => .insert r.1 r.2)) (by
      intro op hop
      simp only [List.mem_map] at hop
      obtain ⟨r, hr, rfl⟩ := hop
      exact hok r hr) (by rw [inserts_map]; simpa [RangeSet.new, RangeSet.ranges, RangeSet.capacity])
  refine ⟨st, h1, fun n => ?_⟩
  rw [mem_flatten, h2, effect_inserts]
  simp [RangeSet.new, RangeSet.ranges]

/-- The same for histories that mix insertions with removals of prefixes: the set
is the mathematical effect of the history. -/
theorem contains_iff_effect (cap : Nat) (ops : List Op) (hok : ∀ op ∈ ops, op.Ok)
    (hcap : inserts ops ≤ cap) :
    ∃ st, run (.new cap) ops = some st ∧
      ∀ n, n ∈ st.flatten ↔ effect (fun _ => False) ops n := by
  obtain ⟨st, h1, h2⟩ := run_exact (inv_new cap) hok
    (by simpa [RangeSet.new, RangeSet.ranges, RangeSet.capacity])
  refine ⟨st, h1, fun n => ?_⟩
  rw [mem_flatten, h2]
  exact effect_congr (fun n => by simp [RangeSet.new, RangeSet.ranges]) ops n

/-- Consequence: insertion order does not matter. -/
theorem order_irrelevant (cap : Nat) (items items' : List Rng) (hp : items.Perm items')
    (hok : ∀ r ∈ items, r.1 ≤ r.2) (hcap : items.length ≤ cap) :
    ∃ st st', run (.new cap) (items.map (fun r => .insert r.1 r.2)) = some st ∧
      run (.new cap) (items'.map (fun r => .insert r.1 r.2)) = some st' ∧
      ∀ n, n ∈ st.flatten ↔ n ∈ st'.flatten := by
  obtain ⟨st, h1, h2⟩ := contains_iff_inserted cap items hok hcap
  obtain ⟨st', h3, h4⟩ := contains_iff_inserted cap items'
    (fun r hr => hok r (hp.mem_iff.mpr hr)) (by rw [← hp.length_eq]; exact hcap)
  refine ⟨st, st', h1, h3, fun n => ?_⟩
  rw [h2, h4]
  constructor
  · rintro ⟨r, hr, h⟩; exact ⟨r, hp.mem_iff.mp hr, h⟩
  · rintro ⟨r, hr, h⟩; exact ⟨r, hp.mem_iff.mpr hr, h⟩

/-- A case crossing the switch to the tree and merging back. -/
example : (run (.new 68) [.insert 4 7, .insert 9 12, .insert 14 16, .insert 20 22, .insert 1 2,
    .insert 6 15]).map RangeSet.ranges = some [(1, 2), (4, 16), (20, 22)] := by decide

end Verif.C05
