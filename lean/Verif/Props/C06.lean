import Verif.Ranges.Spec

/-! # C06 — range sets stay normalised -/

namespace Verif.C06
open Verif Ranges

/-- Specification of normal form: every reported range is not backwards, and any
earlier range ends strictly before any later range starts, so that at least one
number is missing in between. -/
def Normalised (l : List Rng) : Prop :=
  (∀ r ∈ l, r.1 ≤ r.2) ∧
  ∀ (i j : Nat) (a b : Rng), l[i]? = some a → l[j]? = some b → i < j → a.2 < b.1

theorem normalised_of_norm {l : List Rng} (h : Norm l) : Normalised l := by
  refine ⟨h.2, fun i j a b ha hb hij => ?_⟩
  obtain ⟨hi, rfl⟩ := List.getElem?_eq_some_iff.mp ha
  obtain ⟨hj, rfl⟩ := List.getElem?_eq_some_iff.mp hb
  exact List.pairwise_iff_getElem.mp h.1 i j hi hj hij

theorem flatten_pairwise {l : List Rng} (h : Norm l) :
    (l.flatMap (fun r => List.range' r.1 (r.2 - r.1))).Pairwise (· < ·) := by
  induction l with
  | nil => simp
  | cons r t ih =>
    rw [norm_cons] at h
    rw [List.flatMap_cons, List.pairwise_append]
    refine ⟨List.pairwise_lt_range', ih h.2.2, ?_⟩
    intro a ha b hb
    simp only [List.mem_range'_1, List.mem_flatMap] at ha hb
    obtain ⟨x, hx, hb1, hb2⟩ := hb
    have := h.2.1 x hx
    omega

/-- **C06.** Whatever sequence of insertions and removals produced a set, at every
moment its ranges are normalised. (Any prefix of a history is a history, so this
covers every moment.) -/
theorem always_normalised (cap : Nat) (ops : List Op) (hok : ∀ op ∈ ops, op.Ok)
    (st : RangeSet) (hr : run (.new cap) ops = some st) : Normalised st.ranges :=
  normalised_of_norm (run_inv (inv_new cap) hok hr).1.1

/-- Iteration yields every number once, in increasing order; backwards iteration
is its reverse. -/
theorem iteration_increasing (cap : Nat) (ops : List Op) (hok : ∀ op ∈ ops, op.Ok)
    (st : RangeSet) (hr : run (.new cap) ops = some st) :
    st.flatten.Pairwise (· < ·) ∧ st.flatten.reverse.Pairwise (· > ·) ∧
      ∀ n, n ∈ st.flatten ↔ ∃ r ∈ st.ranges, r.1 ≤ n ∧ n < r.2 := by
  have h := flatten_pairwise (run_inv (inv_new cap) hok hr).1.1
  refine ⟨h, ?_, fun n => mem_flatten st n⟩
  rw [List.pairwise_reverse]
  exact h

/-- `first` and `last` report the smallest and largest member. -/
theorem first_last_extreme (cap : Nat) (ops : List Op) (hok : ∀ op ∈ ops, op.Ok)
    (st : RangeSet) (hr : run (.new cap) ops = some st)
    (hne : ∀ r ∈ st.ranges, r.1 < r.2) :
    (∀ lo, st.first = some lo → lo ∈ st.flatten ∧ ∀ n ∈ st.flatten, lo ≤ n) ∧
    (∀ hi, st.last = some (some hi) → hi ∈ st.flatten ∧ ∀ n ∈ st.flatten, n ≤ hi) ∧
    st.last ≠ none ∧
    (st.first = none ↔ st.flatten = []) ∧ (st.last = some none ↔ st.flatten = []) := by
  have hn := (run_inv (inv_new cap) hok hr).1.1
  have hnil : st.flatten = [] ↔ st.ranges = [] := by
    constructor
    · intro h
      cases hl : st.ranges with
      | nil => rfl
      | cons r t =>
        exfalso
        have := hne r (by simp [hl])
        have hm : r.1 ∈ st.flatten := (mem_flatten _ _).mpr ⟨r, by simp [hl], by omega⟩
        simp [h] at hm
    · intro h; simp [RangeSet.flatten, h]
  refine ⟨?_, ?_, ?_, ?_, ?_⟩
  · intro lo hlo
    simp only [RangeSet.first, Option.map_eq_some_iff] at hlo
    obtain ⟨r, hr, rfl⟩ := hlo
    obtain ⟨t, ht⟩ : ∃ t, st.ranges = r :: t := by
      cases hl : st.ranges with
      | nil => simp [hl] at hr
      | cons x t => simp [hl] at hr; exact ⟨t, by simp [hr]⟩
    have hr' := hne r (by simp [ht])
    refine ⟨(mem_flatten _ _).mpr ⟨r, by simp [ht], by omega⟩, fun n hm => ?_⟩
    obtain ⟨x, hx, h1, h2⟩ := (mem_flatten _ _).mp hm
    rw [ht] at hx hn
    rw [norm_cons] at hn
    simp only [List.mem_cons] at hx
    rcases hx with rfl | hx
    · exact h1
    · have := hn.2.1 x hx; omega
  · intro hi hhi
    unfold RangeSet.last at hhi
    split at hhi
    · simp at hhi
    · rename_i r hr
      have hmem := List.mem_of_getLast? hr
      obtain ⟨t, ht⟩ := List.getLast?_eq_some_iff.mp hr
      have hr' := hne r hmem
      rw [if_neg (by omega)] at hhi
      simp only [Option.some.injEq] at hhi
      subst hhi
      refine ⟨(mem_flatten _ _).mpr ⟨r, hmem, by omega⟩, fun n hm => ?_⟩
      obtain ⟨x, hx, h1, h2⟩ := (mem_flatten _ _).mp hm
      rw [ht] at hx hn
      simp only [List.mem_append, List.mem_singleton] at hx
      rcases hx with hx | rfl
      · have := (norm_append.mp hn).2.2 x hx r (by simp); omega
      · omega
  · unfold RangeSet.last
    split
    · simp
    · rename_i r hr
      have := hne r (List.mem_of_getLast? hr)
      rw [if_neg (by omega)]; simp
  · rw [hnil]; simp [RangeSet.first]
  · rw [hnil]
    unfold RangeSet.last
    split
    · rename_i h; simpa using h
    · rename_i r hr
      have := List.mem_of_getLast? hr
      have hne' : st.ranges ≠ [] := by intro h; simp [h] at this
      split <;> simp [hne']

/-- A non-trivial history of the tree representation. -/
example : ((run (.new 68) [.insert 1 2, .insert 4 6, .insert 8 9, .insert 20 22, .insert 12 14,
    .removeUntil 4]).map (fun s => (s.ranges, s.first, s.last)))
    = some ([(5, 6), (8, 9), (12, 14), (20, 22)], some 5, some (some 21)) := by decide

end Verif.C06
