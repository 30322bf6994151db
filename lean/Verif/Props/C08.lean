import Verif.Ranges.Spec

/-! # C08 — removing a prefix is exact -/

namespace Verif.C08
open Verif Ranges

/-- **C08.** From any reachable range set, removing everything up to and including
`k` leaves exactly the members larger than `k`. -/
theorem remove_until_exact (cap : Nat) (ops : List Op) (hok : ∀ op ∈ ops, op.Ok)
    (st : RangeSet) (hr : run (.new cap) ops = some st) (k : Nat) :
    ∀ n, n ∈ (st.removeUntil k).flatten ↔ n ∈ st.flatten ∧ k < n := by
  intro n
  rw [mem_flatten, mem_flatten]
  exact (removeUntil_spec (run_inv (inv_new cap) hok hr).1 k).2.2.2 n

/-- A cut inside a range of a tree, and one inside a gap. -/
example : ((run (.new 68) [.insert 1 2, .insert 4 8, .insert 10 12, .insert 20 22]).map
    (fun s => ((s.removeUntil 5).ranges, (s.removeUntil 9).ranges)))
    = some ([(6, 8), (10, 12), (20, 22)], [(10, 12), (20, 22)]) := by decide

end Verif.C08
