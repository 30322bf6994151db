import Verif.Ranges.Model

/-! Both representations of range sets refine one function on interval lists. -/

namespace Verif.Ranges
open Verif

/-- Membership in a list of half-open ranges. -/
def Mem (n : Nat) (l : List Rng) : Prop := ∃ r ∈ l, r.1 ≤ n ∧ n < r.2

/-- Ranges are well-formed, increasing, disjoint and not adjacent. -/
def Norm (l : List Rng) : Prop :=
  l.Pairwise (fun a b => a.2 < b.1) ∧ ∀ a ∈ l, a.1 ≤ a.2

@[simp] theorem mem_nil (n : Nat) : ¬ Mem n [] := by simp [Mem]

theorem mem_cons (n : Nat) (r : Rng) (l : List Rng) :
    Mem n (r :: l) ↔ (r.1 ≤ n ∧ n < r.2) ∨ Mem n l := by
  simp [Mem]

theorem mem_append (n : Nat) (k l : List Rng) : Mem n (k ++ l) ↔ Mem n k ∨ Mem n l := by
  simp only [Mem, List.mem_append]
  constructor
  · rintro ⟨r, h | h, h2⟩
    · exact .inl ⟨r, h, h2⟩
    · exact .inr ⟨r, h, h2⟩
  · rintro (⟨r, h, h2⟩ | ⟨r, h, h2⟩)
    · exact ⟨r, .inl h, h2⟩
    · exact ⟨r, .inr h, h2⟩

theorem norm_nil : Norm [] := by simp [Norm]

theorem norm_cons {r : Rng} {l : List Rng} :
    Norm (r :: l) ↔ r.1 ≤ r.2 ∧ (∀ x ∈ l, r.2 < x.1) ∧ Norm l := by
  simp only [Norm, List.pairwise_cons, List.mem_cons, forall_eq_or_imp]
  constructor
  · rintro ⟨⟨h1, h2⟩, h3, h4⟩; exact ⟨h3, h1, h2, h4⟩
  · rintro ⟨h3, h1, h2, h4⟩; exact ⟨⟨h1, h2⟩, h3, h4⟩

theorem norm_append {k l : List Rng} :
    Norm (k ++ l) ↔ Norm k ∧ Norm l ∧ ∀ a ∈ k, ∀ b ∈ l, a.2 < b.1 := by
  simp only [Norm, List.pairwise_append, List.mem_append]
  constructor
  · rintro ⟨⟨h1, h2, h3⟩, h4⟩
    exact ⟨⟨h1, fun a h => h4 a (.inl h)⟩, ⟨h2, fun a h => h4 a (.inr h)⟩, h3⟩
  · rintro ⟨⟨h1, h4⟩, ⟨h2, h5⟩, h3⟩
    exact ⟨⟨h1, h2, h3⟩, fun a h => h.elim (h4 a) (h5 a)⟩

/-- Extend a range ending at `e` over the following ranges it touches. -/
def mergeEnd (e : Nat) : List Rng → Nat × List Rng
  | [] => (e, [])
  | (s2, e2) :: t => if e < s2 then (e, (s2, e2) :: t) else mergeEnd (max e2 e) t

/-- Insertion into an unbounded list of ranges. -/
def ins (s e : Nat) : List Rng → List Rng
  | [] => [(s, e)]
  | (a, b) :: t =>
    if b < s then (a, b) :: ins s e t
    else if e < a then (s, e) :: (a, b) :: t
    else (min s a, (mergeEnd (max e b) t).1) :: (mergeEnd (max e b) t).2

theorem inlineMerge_eq (s e : Nat) (l : List Rng) :
    inlineMerge s e l = (s, (mergeEnd e l).1) :: (mergeEnd e l).2 := by
  induction l generalizing e with
  | nil => rfl
  | cons r t ih =>
    obtain ⟨s2, e2⟩ := r
    simp only [inlineMerge, mergeEnd]
    split
    · rfl
    · exact ih _

theorem mergeEnd_le (e : Nat) (l : List Rng) : e ≤ (mergeEnd e l).1 := by
  induction l generalizing e with
  | nil => simp [mergeEnd]
  | cons r t ih =>
    obtain ⟨s2, e2⟩ := r
    simp only [mergeEnd]
    split
    · simp
    · exact Nat.le_trans (Nat.le_max_right _ _) (ih _)

theorem mergeEnd_id {e : Nat} {l : List Rng} (h : ∀ x ∈ l, e < x.1) : mergeEnd e l = (e, l) := by
  cases l with
  | nil => rfl
  | cons r t => simp [mergeEnd, h r (by simp)]

theorem mergeEnd_sub (e : Nat) (l : List Rng) : (mergeEnd e l).2.Sublist l := by
  induction l generalizing e with
  | nil => simp [mergeEnd]
  | cons r t ih =>
    obtain ⟨s2, e2⟩ := r
    simp only [mergeEnd]
    split
    · simp
    · exact (ih _).cons _

theorem mergeEnd_suffix (e : Nat) (l : List Rng) : (mergeEnd e l).2 <:+ l := by
  induction l generalizing e with
  | nil => simp [mergeEnd]
  | cons r t ih =>
    obtain ⟨s2, e2⟩ := r
    simp only [mergeEnd]
    split
    · simp
    · exact (ih _).trans (List.suffix_cons _ _)

theorem Norm.sublist {k l : List Rng} (h : Norm l) (hs : k.Sublist l) : Norm k :=
  ⟨h.1.sublist hs, fun a ha => h.2 a (hs.subset ha)⟩

theorem mergeEnd_lt {e : Nat} {l : List Rng} (h : Norm l) :
    ∀ x ∈ (mergeEnd e l).2, (mergeEnd e l).1 < x.1 := by
  induction l generalizing e with
  | nil => simp [mergeEnd]
  | cons r t ih =>
    obtain ⟨s2, e2⟩ := r
    rw [norm_cons] at h
    simp only [mergeEnd]
    split
    · intro x hx
      simp only [List.mem_cons] at hx
      rcases hx with rfl | hx
      · simpa
      · have := h.2.1 x hx; have := h.1; simp only at *; omega
    · exact ih h.2.2

theorem mergeEnd_mem {s e : Nat} {l : List Rng} (h : Norm l) (hs : ∀ x ∈ l, s ≤ x.1) (n : Nat) :
    ((s ≤ n ∧ n < (mergeEnd e l).1) ∨ Mem n (mergeEnd e l).2) ↔ ((s ≤ n ∧ n < e) ∨ Mem n l) := by
  induction l generalizing e with
  | nil => simp [mergeEnd]
  | cons r t ih =>
    obtain ⟨s2, e2⟩ := r
    rw [norm_cons] at h
    simp only [mergeEnd]
    split
    · rfl
    · rw [ih h.2.2 (fun x hx => hs x (by simp [hx])), mem_cons]
      have := hs (s2, e2) (by simp)
      have := h.1
      simp only at *
      constructor
      · rintro (h | h)
        · by_cases n < e
          · left; omega
          · right; left; omega
        · right; right; exact h
      · rintro (h | h | h)
        · left; omega
        · left; omega
        · right; exact h

theorem ins_norm {s e : Nat} (hse : s ≤ e) {l : List Rng} (h : Norm l) : Norm (ins s e l) ∧
    ∀ x ∈ ins s e l, ∃ y, (y = (s, e) ∨ y ∈ l) ∧ y.1 ≤ x.1 := by
  induction l with
  | nil => simp [ins, norm_cons, norm_nil, hse]
  | cons r t ih =>
    obtain ⟨a, b⟩ := r
    have h' := h
    rw [norm_cons] at h
    obtain ⟨hab, hlt, hn⟩ := h
    obtain ⟨ih1, ih2⟩ := ih hn
    simp only at hab hlt
    simp only [ins]
    split
    · rename_i hb
      rw [norm_cons]
      refine ⟨⟨hab, ?_, ih1⟩, ?_⟩
      · intro x hx
        obtain ⟨y, hy, hyx⟩ := ih2 x hx
        simp only
        rcases hy with rfl | hy
        · simp only at hyx; omega
        · have := hlt y hy; omega
      · intro x hx
        simp only [List.mem_cons] at hx
        rcases hx with rfl | hx
        · exact ⟨(a, b), by simp, by simp⟩
        · obtain ⟨y, hy, hyx⟩ := ih2 x hx
          refine ⟨y, ?_, hyx⟩
          rcases hy with rfl | hy <;> simp [*]
    · split
      · rename_i h1 h2
        rw [norm_cons]
        refine ⟨⟨hse, ?_, h'⟩, ?_⟩
        · intro x hx
          simp only [List.mem_cons] at hx
          rcases hx with rfl | hx
          · exact h2
          · have := hlt x hx; simp only; omega
        · intro x hx
          simp only [List.mem_cons] at hx
          refine ⟨x, ?_, Nat.le_refl _⟩
          simpa using hx
      · rename_i h1 h2
        rw [norm_cons]
        refine ⟨⟨?_, ?_, hn.sublist (mergeEnd_sub _ _)⟩, ?_⟩
        · have := mergeEnd_le (max e b) t
          simp only; omega
        · exact mergeEnd_lt hn
        · intro x hx
          simp only [List.mem_cons] at hx
          rcases hx with rfl | hx
          · simp only
            by_cases hsa : s ≤ a
            · exact ⟨(s, e), by simp, by simp only; omega⟩
            · exact ⟨(a, b), by simp, by simp only; omega⟩
          · exact ⟨x, by simp [(mergeEnd_sub _ _).subset hx], Nat.le_refl _⟩

theorem ins_mem {s e : Nat} (hse : s ≤ e) {l : List Rng} (h : Norm l) (n : Nat) :
    Mem n (ins s e l) ↔ ((s ≤ n ∧ n < e) ∨ Mem n l) := by
  induction l with
  | nil => simp [ins, mem_cons]
  | cons r t ih =>
    obtain ⟨a, b⟩ := r
    rw [norm_cons] at h
    obtain ⟨hab, hlt, hn⟩ := h
    simp only at hab hlt
    simp only [ins]
    split
    · rw [mem_cons, ih hn, mem_cons]
      constructor
      · rintro (h | h | h) <;> simp [h]
      · rintro (h | h | h) <;> simp [h]
    · split
      · simp only [mem_cons]
      · rename_i h1 h2
        rw [mem_cons, mergeEnd_mem hn (by intro x hx; have := hlt x hx; omega), mem_cons]
        simp only
        constructor
        · rintro (h | h)
          · by_cases hh : s ≤ n ∧ n < e
            · exact .inl hh
            · right; left; omega
          · exact .inr (.inr h)
        · rintro (h | h | h)
          · left; omega
          · left; omega
          · exact .inr h

theorem ins_length_le (s e : Nat) (l : List Rng) : (ins s e l).length ≤ l.length + 1 := by
  induction l with
  | nil => simp [ins]
  | cons r t ih =>
    obtain ⟨a, b⟩ := r
    simp only [ins]
    split
    · simp; omega
    · split
      · simp
      · have := (mergeEnd_sub (max e b) t).length_le
        simp; omega

theorem ins_append {s e : Nat} {pre rest : List Rng} (h : ∀ x ∈ pre, x.2 < s) :
    ins s e (pre ++ rest) = pre ++ ins s e rest := by
  induction pre with
  | nil => rfl
  | cons r t ih =>
    obtain ⟨a, b⟩ := r
    have := h (a, b) (by simp)
    simp only at this
    simp [ins, this, ih (fun x hx => h x (by simp [hx]))]

/-! ### Inline -/

theorem inlineInsert_lt {cap s e : Nat} {pre l : List Rng}
    (h : Norm (pre ++ l)) (hcap : (pre ++ l).length < cap) :
    inlineInsert cap s e pre l = some (pre ++ ins s e l) := by
  induction l generalizing pre with
  | nil =>
    simp only [List.append_nil] at hcap
    simp only [inlineInsert, ins]; rw [if_neg (by omega)]
  | cons r t ih =>
    obtain ⟨a, b⟩ := r
    simp only [inlineInsert, ins]
    by_cases h1 : b < s
    · rw [if_pos h1, if_pos h1, ih (by simpa using h) (by simpa using hcap)]
      simp
    rw [if_neg h1, if_neg h1]
    by_cases h2 : e < a
    · rw [if_pos h2, if_pos h2, if_neg (by omega)]
    rw [if_neg h2, if_neg h2]
    have hs : (if s < a then s else a) = min s a := by split <;> omega
    rw [hs]
    have hn := (norm_append.mp h).2.1
    rw [norm_cons] at hn
    by_cases h3 : e > b
    · rw [if_pos h3, inlineMerge_eq]
      have : max e b = e := by omega
      rw [this]
    · rw [if_neg h3]
      have : max e b = b := by omega
      rw [this, mergeEnd_id hn.2.1]

/-- At capacity, insertion into the inline representation either merges or
drops the first entry. -/
theorem inlineInsert_some {cap s e : Nat} {pre l l' : List Rng}
    (h : Norm (pre ++ l)) (hi : inlineInsert cap s e pre l = some l') :
    (l' = pre ++ ins s e l ∧ (l'.length ≤ (pre ++ l).length ∨ (pre ++ l).length ≠ cap)) ∨
      ((pre ++ l).length = cap ∧ ∃ x t, pre ++ l = x :: t ∧ pre ++ ins s e l = x :: l' ∧
        l'.length = cap) := by
  induction l generalizing pre with
  | nil =>
    simp only [inlineInsert] at hi
    split at hi
    · rename_i hc
      split at hi
      · simp at hi
      · rename_i p pre'
        simp only [Option.some.injEq] at hi
        right
        refine ⟨by simpa using hc, p, pre', by simp, by simp [ins, ← hi], ?_⟩
        rw [← hi]; simp at hc ⊢; omega
    · rename_i hc
      left; exact ⟨by simpa [ins] using hi.symm, .inr (by simpa using hc)⟩
  | cons r t ih =>
    obtain ⟨a, b⟩ := r
    simp only [inlineInsert] at hi
    simp only [ins]
    by_cases h1 : b < s
    · rw [if_pos h1] at hi ⊢
      have := ih (pre := pre ++ [(a, b)]) (by simpa using h) hi
      simpa using this
    rw [if_neg h1] at hi ⊢
    by_cases h2 : e < a
    · rw [if_pos h2] at hi ⊢
      split at hi
      · rename_i hc
        split at hi
        · simp at hi
        · rename_i p pre'
          simp only [Option.some.injEq] at hi
          right
          refine ⟨hc, p, pre' ++ (a, b) :: t, by simp, by simp [← hi], ?_⟩
          rw [← hi]; simp at hc ⊢; omega
      · rename_i hc
        left; exact ⟨by simpa using hi.symm, .inr hc⟩
    rw [if_neg h2] at hi ⊢
    left
    have hs : (if s < a then s else a) = min s a := by split <;> omega
    rw [hs] at hi
    have hn := (norm_append.mp h).2.1
    rw [norm_cons] at hn
    have hl := (mergeEnd_sub (max e b) t).length_le
    have : l' = pre ++ (min s a, (mergeEnd (max e b) t).1) :: (mergeEnd (max e b) t).2 := by
      by_cases h3 : e > b
      · rw [if_pos h3, inlineMerge_eq] at hi
        have : max e b = e := by omega
        rw [this]; simpa using hi.symm
      · rw [if_neg h3] at hi
        have : max e b = b := by omega
        rw [this, mergeEnd_id hn.2.1]; simpa using hi.symm
    refine ⟨this, .inl ?_⟩
    rw [this]; simp; omega

/-- The inline insertion panics only when the set is full. -/
theorem inlineInsert_isSome {cap s e : Nat} {pre l : List Rng}
    (hcap : (pre ++ l).length ≠ cap) : (inlineInsert cap s e pre l).isSome := by
  induction l generalizing pre with
  | nil => simp only [inlineInsert]; rw [if_neg (by simpa using hcap)]; rfl
  | cons r t ih =>
    obtain ⟨a, b⟩ := r
    simp only [inlineInsert]
    split
    · exact ih (by simpa using hcap)
    · split
      · simp
      · split <;> rfl

/-! ### B-tree -/

theorem split_at {m : List Rng} (h : Norm m) (s : Nat) :
    ∃ pre rest, m = pre ++ rest ∧ (∀ x ∈ pre, x.2 < s) ∧ (∀ x ∈ rest, s ≤ x.2) := by
  induction m with
  | nil => exact ⟨[], [], by simp⟩
  | cons r t ih =>
    have h' := h
    rw [norm_cons] at h
    by_cases hr : r.2 < s
    · obtain ⟨pre, rest, h1, h2, h3⟩ := ih h.2.2
      refine ⟨r :: pre, rest, by simp [h1], ?_, h3⟩
      intro x hx
      simp only [List.mem_cons] at hx
      rcases hx with rfl | hx
      · exact hr
      · exact h2 x hx
    · refine ⟨[], r :: t, rfl, by simp, ?_⟩
      intro x hx
      simp only [List.mem_cons] at hx
      rcases hx with rfl | hx
      · omega
      · have := h.2.1 x hx; have := h.2.2.2 x hx; omega

theorem mapRemove_split {pre rest : List Rng} {r : Rng} (h : Norm (pre ++ r :: rest)) :
    mapRemove (pre ++ r :: rest) r.1 = pre ++ rest := by
  obtain ⟨h1, h2, h3⟩ := norm_append.mp h
  rw [norm_cons] at h2
  simp only [mapRemove, List.filter_append, List.filter_cons]
  have e1 : pre.filter (fun x => !decide (x.1 = r.1)) = pre := by
    rw [List.filter_eq_self]
    intro a ha
    have := h3 a ha r (by simp)
    have := h1.2 a ha
    simp; omega
  have e2 : rest.filter (fun x => !decide (x.1 = r.1)) = rest := by
    rw [List.filter_eq_self]
    intro a ha
    have := h2.2.1 a ha
    simp; omega
  simp [e1, e2]

theorem nextTo_split {pre rest : List Rng} {s : Nat} (h1 : ∀ x ∈ pre, x.1 < s)
    (h2 : ∀ x ∈ rest, s ≤ x.1) : nextTo (pre ++ rest) s = rest.head? := by
  unfold nextTo
  rw [List.find?_append]
  have : pre.find? (fun r => decide (s ≤ r.1)) = none := by
    rw [List.find?_eq_none]; intro x hx; have := h1 x hx; simp; omega
  rw [this]
  cases rest with
  | nil => simp
  | cons r t => simp [h2 r (by simp)]

theorem btreeLoop_spec (item : Rng) (fuel : Nat) (pre rest : List Rng) (start fin : Nat)
    (hi : item.1 ≤ item.2) (hn : Norm (pre ++ rest)) (hfuel : rest.length < fuel)
    (hpre : ∀ x ∈ pre, x.1 < start) (hrest : ∀ x ∈ rest, start ≤ x.1 ∧ item.1 ≤ x.1)
    (hfin : fin = item.2 ∨ (item.2 ≤ fin ∧ ∀ x ∈ rest, fin < x.1)) :
    btreeLoop item fuel (pre ++ rest) start fin
      = (pre ++ (mergeEnd fin rest).2, start, (mergeEnd fin rest).1) := by
  induction rest generalizing fuel fin with
  | nil =>
    cases fuel with
    | zero => simp at hfuel
    | succ fuel =>
      simp only [btreeLoop]
      rw [nextTo_split hpre (by simp)]
      simp [mergeEnd]
  | cons r t ih =>
    cases fuel with
    | zero => simp at hfuel
    | succ fuel =>
      simp only [btreeLoop]
      rw [nextTo_split hpre (fun x hx => (hrest x hx).1)]
      simp only [List.head?_cons]
      rw [mapRemove_split hn]
      have hn2 := (norm_append.mp hn).2.1
      rw [norm_cons] at hn2
      have hn3 : Norm (pre ++ t) := hn.sublist (List.Sublist.append (List.Sublist.refl _)
        (List.sublist_cons_self _ _))
      have hr := hrest r (by simp)
      obtain ⟨ra, rb⟩ := r
      obtain ⟨i1, i2⟩ := item
      simp only at *
      have hf2 : (fin < ra ↔ i2 < ra) ∧ i2 ≤ fin := by
        rcases hfin with rfl | ⟨h1, h2⟩
        · simp
        · have := h2 (ra, rb) (by simp); simp only at this; omega
      simp only [mergeEnd]
      by_cases hc : rngContains (i1, i2) ra && rngContains (i1, i2) rb
      · rw [if_pos hc]
        simp only [rngContains, Bool.and_eq_true, decide_eq_true_eq] at hc
        rw [ih fuel fin hn3 (by simp at hfuel; omega) (fun x hx => hrest x (by simp [hx]))
          (by rcases hfin with h | ⟨h1, h2⟩
              · exact .inl h
              · exact .inr ⟨h1, fun x hx => h2 x (by simp [hx])⟩)]
        rw [if_neg (by omega)]
        have : max rb fin = fin := by omega
        rw [this]
      · rw [if_neg hc]
        simp only [rngContains, Bool.and_eq_true, decide_eq_true_eq] at hc
        by_cases ho : rangeOverlaps (ra, rb) (i1, i2) = true
        · simp only [ho]
          simp only [rangeOverlaps, Bool.or_eq_true, Bool.and_eq_true, decide_eq_true_eq] at ho
          have hge : ¬ fin < ra := by
            intro hlt; omega
          have e1 : min start ra = start := by omega
          have e2 : max fin rb = max rb fin := by omega
          rw [if_neg hge, e1, e2]
          simp only [Bool.not_true, Bool.false_eq_true, if_false]
          apply ih fuel _ hn3 (by simp at hfuel; omega) (fun x hx => hrest x (by simp [hx]))
          rcases hfin with h | ⟨h1, h2⟩
          · by_cases hh : rb ≤ fin
            · left; omega
            · right
              refine ⟨by omega, fun x hx => ?_⟩
              have := hn2.2.1 x hx
              omega
          · have := h2 (ra, rb) (by simp); omega
        · simp only [ho, Bool.not_false, if_true]
          simp only [rangeOverlaps, Bool.or_eq_true, Bool.and_eq_true, decide_eq_true_eq] at ho
          rw [if_pos (by omega)]

theorem prevTo_split {pre rest : List Rng} {s : Nat} (hn : Norm (pre ++ rest))
    (h1 : ∀ x ∈ pre, x.2 < s) (h2 : ∀ x ∈ rest, s ≤ x.2) :
    prevTo (pre ++ rest) s = match rest with
      | [] => pre.getLast?
      | r :: _ => if r.1 ≤ s then some r else pre.getLast? := by
  obtain ⟨hp, hr, hx⟩ := norm_append.mp hn
  unfold prevTo
  rw [List.filter_append]
  have e1 : pre.filter (fun r => decide (r.1 ≤ s)) = pre := by
    rw [List.filter_eq_self]
    intro a ha; have := h1 a ha; have := hp.2 a ha; simp; omega
  rw [e1]
  cases rest with
  | nil => simp
  | cons r t =>
    rw [norm_cons] at hr
    have e2 : t.filter (fun r => decide (r.1 ≤ s)) = [] := by
      rw [List.filter_eq_nil_iff]
      intro a ha; have := hr.2.1 a ha; have := h2 r (by simp); simp; omega
    simp only [List.filter_cons, e2]
    by_cases hh : r.1 ≤ s <;> simp [hh]

theorem btreeAbsorb_spec {m : List Rng} (h : Norm m) (s e : Nat) (hse : s ≤ e) :
    ∃ pre post start fin, btreeAbsorb m (s, e) = (pre ++ post, start, fin) ∧
      ins s e m = pre ++ (start, fin) :: post ∧ (pre ++ post).Sublist m := by
  obtain ⟨pre, rest, rfl, hpre, hrest⟩ := split_at h s
  have hpn := (norm_append.mp h).1
  have hprelt : ∀ x ∈ pre, x.1 < s := fun x hx => by
    have := hpre x hx; have := hpn.2 x hx; omega
  rw [ins_append hpre]
  have hno : ∀ p, pre.getLast? = some p → rangeOverlaps p (s, e) = false := by
    intro p hp
    have := hpre p (List.mem_of_getLast? hp)
    have h3 := hpn.2 p (List.mem_of_getLast? hp)
    simp [rangeOverlaps]; omega
  cases rest with
  | nil =>
    refine ⟨pre, [], s, e, ?_, by simp [ins], by simp⟩
    have hl := btreeLoop_spec (s, e) (pre.length + 1) pre [] s e hse h (by simp) hprelt (by simp)
      (.inl rfl)
    simp only [mergeEnd, List.append_nil] at hl ⊢
    unfold btreeAbsorb
    have hp := prevTo_split h hpre hrest
    simp only [List.append_nil] at hp
    simp only [hp]
    rcases hpl : pre.getLast? with _ | p
    · simpa using hl
    · simp only [hno p hpl]; simpa using hl
  | cons r t =>
    obtain ⟨a, b⟩ := r
    have hn2 := (norm_append.mp h).2.1
    rw [norm_cons] at hn2
    have hb := hrest (a, b) (by simp)
    simp only at hb hn2
    have hprea : ∀ x ∈ pre, x.1 < a := fun x hx => by
      have := (norm_append.mp h).2.2 x hx (a, b) (by simp)
      have := hpn.2 x hx; simp only at *; omega
    unfold btreeAbsorb
    simp only [prevTo_split h hpre hrest]
    by_cases ha : a ≤ s
    · -- the range starting at or before `s` is merged
      have ho : rangeOverlaps (a, b) (s, e) = true := by simp [rangeOverlaps]; omega
      simp only [if_pos ha, ho]
      rw [mapRemove_split h]
      have hn3 : Norm (pre ++ t) := h.sublist (List.Sublist.append (List.Sublist.refl _)
        (List.sublist_cons_self _ _))
      have hms : min s a = a := by omega
      simp only [ins]
      rw [if_neg (show ¬ b < s by omega), if_neg (show ¬ e < a by omega), hms]
      refine ⟨pre, (mergeEnd (max e b) t).2, a, (mergeEnd (max e b) t).1, ?_, rfl, ?_⟩
      · simp only [if_true]
        apply btreeLoop_spec (s, e) _ pre t a (max e b) hse hn3 (by simp; omega) hprea
        · intro x hx
          have := hn2.2.1 x hx
          simp only; omega
        · by_cases hh : b ≤ e
          · left; simp only; omega
          · right
            refine ⟨by simp only; omega, fun x hx => ?_⟩
            have := hn2.2.1 x hx; omega
      · exact List.Sublist.append (List.Sublist.refl _)
          ((mergeEnd_sub _ _).trans (List.sublist_cons_self _ _))
    · -- the range after `s` is handled by the loop
      simp only [if_neg ha]
      have hloop : ∀ k, (pre ++ (a, b) :: t).length < k →
          btreeLoop (s, e) k (pre ++ (a, b) :: t) s e
          = (pre ++ (mergeEnd e ((a, b) :: t)).2, s, (mergeEnd e ((a, b) :: t)).1) := by
        intro k hk
        apply btreeLoop_spec (s, e) k pre ((a, b) :: t) s e hse h (by simp at hk ⊢; omega) hprelt
        · intro x hx
          simp only [List.mem_cons] at hx
          rcases hx with rfl | hx
          · simp only; omega
          · have := hn2.2.1 x hx; simp only; omega
        · exact .inl rfl
      refine ⟨pre, (mergeEnd e ((a, b) :: t)).2, s, (mergeEnd e ((a, b) :: t)).1, ?_, ?_, ?_⟩
      · rcases hpl : pre.getLast? with _ | p
        · simp only; exact hloop _ (by omega)
        · simp only [hno p hpl, Bool.false_eq_true, if_false]; exact hloop _ (by omega)
      · simp only [ins, mergeEnd]
        rw [if_neg (by omega)]
        congr 1
        split
        · rfl
        · have e1 : min s a = s := by omega
          have e2 : max e b = max b e := by omega
          rw [e1, e2]
      · exact List.Sublist.append (List.Sublist.refl _) (mergeEnd_sub _ _)

theorem mapInsert_split {pre post : List Rng} {s e : Nat} (h : Norm (pre ++ (s, e) :: post)) :
    mapInsert s e (pre ++ post) = pre ++ (s, e) :: post := by
  induction pre with
  | nil =>
    cases post with
    | nil => rfl
    | cons r t =>
      obtain ⟨a, b⟩ := r
      simp only [List.nil_append, norm_cons] at h
      have := h.2.1 (a, b) (by simp)
      simp only at this h
      simp only [List.nil_append, mapInsert]
      rw [if_pos (by omega)]
  | cons r t ih =>
    obtain ⟨a, b⟩ := r
    simp only [List.cons_append, norm_cons] at h
    have := h.2.1 (s, e) (by simp)
    simp only at this h
    simp only [List.cons_append, mapInsert]
    rw [if_neg (by omega), if_neg (by omega), ih h.2.2]

/-- The complete behaviour of insertion into the B-tree representation. -/
theorem btreeInsert_spec {m : List Rng} (h : Norm m) (cap s e : Nat) (hse : s ≤ e) :
    ∃ pre post start fin, ins s e m = pre ++ (start, fin) :: post ∧
      (pre ++ post).Sublist m ∧
      btreeInsert cap m (s, e) =
        if (pre ++ post).length < cap then pre ++ (start, fin) :: post
        else match pre with
          | [] => (start, fin) :: post.tail
          | _ :: pre' => pre' ++ (start, fin) :: post := by
  obtain ⟨pre, post, start, fin, hab, hins, hsub⟩ := btreeAbsorb_spec h s e hse
  refine ⟨pre, post, start, fin, hins, hsub, ?_⟩
  have hn : Norm (pre ++ (start, fin) :: post) := hins ▸ (ins_norm hse h).1
  simp only [btreeInsert, hab]
  by_cases hc : (pre ++ post).length < cap
  · rw [if_pos hc, if_neg (by omega), mapInsert_split hn]
  · rw [if_neg hc, if_pos (by omega)]
    cases pre with
    | nil =>
      simp only [List.nil_append]
      cases post with
      | nil => simp [mapInsert]
      | cons r t =>
        have : Norm ([] ++ (start, fin) :: t) := by
          refine hn.sublist ?_
          simp
        simpa using mapInsert_split this
    | cons p pre' =>
      simp only [List.cons_append, List.tail_cons]
      exact mapInsert_split (hn.sublist (by simp))

/-! ### remove_until -/

theorem inlineRemove_spec {l : List Rng} (h : Norm l) (k : Nat) :
    Norm (inlineRemoveUntil k l) ∧ (∀ n, Mem n (inlineRemoveUntil k l) ↔ Mem n l ∧ k < n) ∧
    (inlineRemoveUntil k l).length ≤ l.length := by
  induction l with
  | nil => simp [inlineRemoveUntil, norm_nil]
  | cons r t ih =>
    obtain ⟨a, b⟩ := r
    rw [norm_cons] at h
    obtain ⟨hab, hlt, hn⟩ := h
    obtain ⟨i1, i2, i3⟩ := ih hn
    have hbig : ∀ n, Mem n t → b < n := by
      rintro n ⟨r, hr, h1, h2⟩; have := hlt r hr; simp only at this; omega
    simp only [inlineRemoveUntil]
    simp only at hab
    split
    · refine ⟨i1, fun n => ?_, by simp; omega⟩
      rw [i2, mem_cons]
      simp only
      constructor
      · rintro ⟨h1, h2⟩; exact ⟨.inr h1, h2⟩
      · rintro ⟨h1 | h1, h2⟩
        · omega
        · exact ⟨h1, h2⟩
    · split
      · refine ⟨hn, fun n => ?_, by simp⟩
        rw [mem_cons]
        simp only
        constructor
        · intro h1; have := hbig n h1; exact ⟨.inr h1, by omega⟩
        · rintro ⟨h1 | h1, h2⟩
          · omega
          · exact h1
      · refine ⟨?_, fun n => ?_, by simp⟩
        · rw [norm_cons]; exact ⟨by simp only; omega, hlt, hn⟩
        · rw [mem_cons, mem_cons]
          simp only
          constructor
          · rintro (h1 | h1)
            · exact ⟨.inl (by omega), by omega⟩
            · have := hbig n h1; exact ⟨.inr h1, by omega⟩
          · rintro ⟨h1 | h1, h2⟩
            · left; omega
            · exact .inr h1

theorem btreeRemove_spec {m : List Rng} (h : Norm m) (cap k : Nat) (hcap : m.length ≤ cap) :
    Norm (btreeRemoveUntil cap m k) ∧ (∀ n, Mem n (btreeRemoveUntil cap m k) ↔ Mem n m ∧ k < n) ∧
    (btreeRemoveUntil cap m k).length ≤ m.length := by
  unfold btreeRemoveUntil
  -- ranges starting at or below `k` form a prefix
  have hsplit : ∃ pre rest, m = pre ++ rest ∧ (∀ x ∈ pre, x.1 ≤ k) ∧ (∀ x ∈ rest, k < x.1) := by
    clear hcap
    induction m with
    | nil => exact ⟨[], [], by simp⟩
    | cons r t ih =>
      have h' := h
      rw [norm_cons] at h
      by_cases hr : r.1 ≤ k
      · obtain ⟨pre, rest, h1, h2, h3⟩ := ih h.2.2
        refine ⟨r :: pre, rest, by simp [h1], ?_, h3⟩
        intro x hx
        simp only [List.mem_cons] at hx
        rcases hx with rfl | hx
        · exact hr
        · exact h2 x hx
      · refine ⟨[], r :: t, rfl, by simp, ?_⟩
        intro x hx
        simp only [List.mem_cons] at hx
        rcases hx with rfl | hx
        · omega
        · have := h.2.1 x hx; omega
  obtain ⟨pre, rest, rfl, hp, hr⟩ := hsplit
  have hf : (pre ++ rest).filter (fun r => decide (r.1 ≤ k)) = pre := by
    rw [List.filter_append]
    have e1 : pre.filter (fun r => decide (r.1 ≤ k)) = pre := by
      rw [List.filter_eq_self]; intro a ha; simpa using hp a ha
    have e2 : rest.filter (fun r => decide (r.1 ≤ k)) = [] := by
      rw [List.filter_eq_nil_iff]; intro a ha; have := hr a ha; simp; omega
    rw [e1, e2]; simp
  rw [hf]
  have hrestmem : ∀ n, Mem n rest → k < n := by
    rintro n ⟨r, hrr, h1, h2⟩; have := hr r hrr; omega
  -- induction over the prefix
  clear hf
  induction pre with
  | nil =>
    simp only [List.nil_append, List.foldl_nil] at *
    exact ⟨h, fun n => ⟨fun hm => ⟨hm, hrestmem n hm⟩, fun hm => hm.1⟩, Nat.le_refl _⟩
  | cons r t ih =>
    obtain ⟨a, b⟩ := r
    simp only [List.foldl_cons]
    have hrem : mapRemove ((a, b) :: t ++ rest) a = t ++ rest := by
      have := mapRemove_split (pre := []) (r := (a, b)) (rest := t ++ rest) (by simpa using h)
      simpa using this
    have hn2 := h
    simp only [List.cons_append, norm_cons] at hn2
    obtain ⟨hab, hlt, hn⟩ := hn2
    have ha := hp (a, b) (by simp)
    simp only at ha hab
    rw [hrem]
    by_cases hb : b > k + 1
    · -- this is the last range of the prefix
      have ht : t = [] := by
        cases t with
        | nil => rfl
        | cons x t' =>
          have h1 := hlt x (by simp)
          have h2 := hp x (by simp)
          omega
      subst ht
      have hn : Norm rest := hn
      have hlt : ∀ x ∈ rest, b < x.1 := hlt
      simp only [if_pos hb, List.nil_append, List.foldl_nil]
      simp only [List.cons_append, List.nil_append, List.length_cons] at hcap
      obtain ⟨p, q, st, fi, hins, hsub, heq⟩ := btreeInsert_spec hn cap (k + 1) b (by omega)
      have hinsrest : ins (k + 1) b rest = (k + 1, b) :: rest := by
        cases rest with
        | nil => rfl
        | cons y rest' =>
          obtain ⟨y1, y2⟩ := y
          have h1 := hlt (y1, y2) (by simp)
          have h2 := hn.2 (y1, y2) (by simp)
          simp only at h1 h2
          simp only [ins]; rw [if_neg (by omega), if_pos (by omega)]
      have hlen : (p ++ q).length < cap := by
        have := hsub.length_le; omega
      rw [heq, if_pos hlen, ← hins, hinsrest]
      refine ⟨norm_cons.mpr ⟨by simp only; omega, hlt, hn⟩, fun n => ?_, by simp⟩
      rw [List.cons_append, List.nil_append, mem_cons, mem_cons]
      constructor
      · rintro (h1 | h1)
        · exact ⟨.inl (by omega), by omega⟩
        · exact ⟨.inr h1, hrestmem n h1⟩
      · rintro ⟨h1 | h1, h2⟩
        · left; omega
        · exact .inr h1
    · simp only [if_neg hb]
      obtain ⟨j1, j2, j3⟩ := ih hn (by simp at hcap ⊢; omega) (fun x hx => hp x (by simp [hx]))
      refine ⟨j1, fun n => ?_, by simp at j3 ⊢; omega⟩
      rw [j2]
      simp only [List.cons_append, mem_cons]
      constructor
      · rintro ⟨h1, h2⟩; exact ⟨.inr h1, h2⟩
      · rintro ⟨h1 | h1, h2⟩
        · omega
        · exact ⟨h1, h2⟩

@[simp] theorem fixup_ranges (s : RangeSet) : s.fixup.ranges = s.ranges := by
  cases s <;> simp only [RangeSet.fixup] <;> split <;> rfl

@[simp] theorem fixup_capacity (s : RangeSet) : s.fixup.capacity = s.capacity := by
  cases s <;> simp only [RangeSet.fixup] <;> split <;> rfl

/-! ### The set -/

/-- `item` overlaps or is adjacent to `r`. -/
def Touch (item r : Rng) : Prop := item.1 ≤ r.2 ∧ r.1 ≤ item.2

theorem ins_touch {s e : Nat} {l : List Rng} (h : ∃ r ∈ l, Touch (s, e) r) (hn : Norm l) :
    (ins s e l).length ≤ l.length := by
  induction l with
  | nil => simp at h
  | cons r t ih =>
    obtain ⟨a, b⟩ := r
    simp only [ins]
    rw [norm_cons] at hn
    split
    · rename_i hb
      obtain ⟨x, hx, ht⟩ := h
      simp only [List.mem_cons] at hx
      rcases hx with rfl | hx
      · simp [Touch] at ht; omega
      · have := ih ⟨x, hx, ht⟩ hn.2.2; simp; omega
    · split
      · rename_i hb hb2
        obtain ⟨x, hx, ht⟩ := h
        simp only [List.mem_cons] at hx
        rcases hx with rfl | hx
        · simp [Touch] at ht; omega
        · have := hn.2.1 x hx; have := hn.1; simp [Touch] at *; omega
      · have := (mergeEnd_sub (max e b) t).length_le
        simp; omega

theorem mem_drop_one {p q : List Rng} {h : Rng} (hn : Norm (p ++ h :: q)) (n : Nat) :
    Mem n (p ++ q) ↔ Mem n (p ++ h :: q) ∧ ¬ (h.1 ≤ n ∧ n < h.2) := by
  obtain ⟨h1, h2, h3⟩ := norm_append.mp hn
  rw [norm_cons] at h2
  rw [mem_append, mem_append, mem_cons]
  constructor
  · rintro (⟨r, hr, ha⟩ | ⟨r, hr, ha⟩)
    · have := h3 r hr h (by simp)
      exact ⟨.inl ⟨r, hr, ha⟩, by omega⟩
    · have := h2.2.1 r hr
      exact ⟨.inr (.inr ⟨r, hr, ha⟩), by omega⟩
  · rintro ⟨ha | ha | ha, hb⟩
    · exact .inl ha
    · exact absurd ha hb
    · exact .inr ha

theorem ranges_inline (l : List Rng) (c : Nat) : (RangeSet.inline l c).ranges = l := rfl
theorem ranges_btree (l : List Rng) (c : Nat) : (RangeSet.btree l c).ranges = l := rfl
theorem capacity_inline (l : List Rng) (c : Nat) : (RangeSet.inline l c).capacity = c := rfl
theorem capacity_btree (l : List Rng) (c : Nat) : (RangeSet.btree l c).capacity = c := rfl

/-- The representation is inline only for at most three ranges, and a tree only
for at least three. -/
def RepOk : RangeSet → Prop
  | .inline l _ => l.length ≤ 3
  | .btree l _ => 3 ≤ l.length

/-- Invariant of range sets between operations. -/
def Inv (s : RangeSet) : Prop :=
  Norm s.ranges ∧ s.ranges.length ≤ s.capacity ∧ RepOk s

theorem inv_new (cap : Nat) : Inv (.new cap) := by
  refine ⟨norm_nil, by simp [RangeSet.new, RangeSet.ranges], ?_⟩
  simp [RepOk, RangeSet.new]

theorem fixup_rep {s : RangeSet} (h : s.ranges.length ≤ 4 ∨ ∃ l c, s = .btree l c) :
    RepOk s.fixup := by
  cases s with
  | inline l c =>
    have h : l.length ≤ 4 := by simpa [ranges_inline] using h
    simp only [RangeSet.fixup, maxInlineCapacity]
    by_cases h4 : l.length = 4
    · rw [if_pos h4]; simp [RepOk, h4]
    · rw [if_neg h4]; simp only [RepOk]; omega
  | btree l c =>
    simp only [RangeSet.fixup, minToInline]
    by_cases h4 : l.length ≤ 2
    · rw [if_pos h4]; simp only [RepOk]; omega
    · rw [if_neg h4]; simp only [RepOk]; omega

/-- Everything there is to know about a successful insertion. -/
theorem insert_spec {st st' : RangeSet} (hinv : Inv st) {s e : Nat} (hse : s ≤ e)
    (hi : st.insert (s, e) = some st') :
    Inv st' ∧ st'.capacity = st.capacity ∧
    (st'.ranges = ins s e st.ranges ∨
      (st.ranges.length = st.capacity ∧ st'.ranges.length ≤ st.capacity ∧
        (∀ r ∈ st.ranges, ¬ Touch (s, e) r) ∧
        ∃ x t, st.ranges = x :: t ∧
          ∀ n, Mem n st'.ranges ↔ (Mem n st.ranges ∨ (s ≤ n ∧ n < e)) ∧ ¬ (x.1 ≤ n ∧ n < x.2))) := by
  obtain ⟨hn, hlen, hin⟩ := hinv
  have hins := (ins_norm hse hn).1
  have hmem := ins_mem hse hn
  have hnt : (ins s e st.ranges).length > st.ranges.length → ∀ r ∈ st.ranges, ¬ Touch (s, e) r := by
    intro h r hr ht
    have := ins_touch ⟨r, hr, ht⟩ hn; omega
  cases st with
  | inline l c =>
    have hl : l.length ≤ 3 := hin
    simp only [RangeSet.insert, Option.map_eq_some_iff] at hi
    obtain ⟨l', hl', rfl⟩ := hi
    simp only [fixup_ranges, fixup_capacity, ranges_inline, ranges_btree, capacity_inline, capacity_btree] at *
    have hsome := inlineInsert_some (pre := []) (by simpa using hn) hl'
    simp only [List.nil_append] at hsome
    have hge := ins_length_le s e l
    have h4 : l'.length ≤ 4 := by
      rcases hsome with ⟨h1, h2⟩ | ⟨h1, x, t, h2, h3, h4⟩
      · rw [h1]; omega
      · omega
    have hfix := fixup_rep (s := .inline l' c) (.inl h4)
    refine ⟨⟨?_, ?_, hfix⟩, trivial, ?_⟩
    · simp only [fixup_ranges, ranges_inline, ranges_btree]
      rcases hsome with ⟨h1, h2⟩ | ⟨h1, x, t, h2, h3, h4⟩
      · rw [h1]; exact hins
      · rw [h3] at hins; exact (norm_cons.mp hins).2.2
    · simp only [fixup_ranges, fixup_capacity, ranges_inline, ranges_btree, capacity_inline, capacity_btree]
      rcases hsome with ⟨h1, h2⟩ | ⟨h1, x, t, h2, h3, h4⟩
      · rw [h1] at h2 ⊢; omega
      · omega
    · rcases hsome with ⟨h1, h2⟩ | ⟨h1, x, t, h2, h3, h4⟩
      · exact .inl h1
      · right
        refine ⟨h1, by omega, hnt (by rw [h3]; simp; omega), x, t, h2, fun n => ?_⟩
        rw [h3] at hins hmem
        have := mem_drop_one (p := []) (by simpa using hins) n
        simp only [List.nil_append] at this
        rw [this, hmem]
        simp only [or_comm]
  | btree m c =>
    simp only [RangeSet.insert, Option.some.injEq] at hi
    subst hi
    simp only [fixup_ranges, fixup_capacity, ranges_inline, ranges_btree, capacity_inline, capacity_btree] at *
    obtain ⟨pre, post, start, fin, h1, h2, h3⟩ := btreeInsert_spec hn c s e hse
    have hfix := fixup_rep (s := .btree (btreeInsert c m (s, e)) c) (.inr ⟨_, _, rfl⟩)
    rw [h1] at hins hmem hnt
    by_cases hc : (pre ++ post).length < c
    · rw [if_pos hc] at h3
      refine ⟨⟨?_, ?_, hfix⟩, trivial, .inl (by rw [h3, h1])⟩
      · simp only [fixup_ranges, ranges_inline, ranges_btree]; rw [h3]; exact hins
      · simp only [fixup_ranges, fixup_capacity, ranges_inline, ranges_btree, capacity_inline, capacity_btree]
        rw [h3]; simp at hc ⊢; omega
    · rw [if_neg hc] at h3
      have hm : pre ++ post = m := h2.eq_of_length_le (by omega)
      replace hnt := hnt (by rw [← hm]; simp)
      have hmc : m.length = c := by rw [← hm] at hlen ⊢; omega
      cases pre with
      | nil =>
        simp only [List.nil_append] at *
        subst hm
        cases post with
        | nil =>
          simp [RepOk] at hin
        | cons x t =>
          simp only [List.tail_cons] at h3
          have hd := mem_drop_one (p := [(start, fin)]) (h := x) (q := t) (by simpa using hins)
          have hn' : Norm ((start, fin) :: t) := hins.sublist (by simp)
          refine ⟨⟨?_, ?_, hfix⟩, trivial, .inr ⟨hmc, ?_, hnt, x, t, rfl, fun n => ?_⟩⟩
          · simp only [fixup_ranges, ranges_inline, ranges_btree]; rw [h3]; exact hn'
          · simp only [fixup_ranges, fixup_capacity, ranges_inline, ranges_btree, capacity_inline, capacity_btree]
            rw [h3, ← hmc]; simp
          · rw [h3, ← hmc]; simp
          · rw [h3]
            have := hd n
            simp only [List.cons_append, List.nil_append] at this
            rw [this, hmem]; simp only [or_comm]
      | cons x pre' =>
        simp only at h3
        simp only [List.cons_append] at hins hm hmem
        have hd := mem_drop_one (p := []) (h := x) (q := pre' ++ (start, fin) :: post)
          (by simpa using hins)
        have hn' := (norm_cons.mp hins).2.2
        have hlen' : (pre' ++ (start, fin) :: post).length = c := by
          rw [← hmc, ← hm]; simp; omega
        refine ⟨⟨?_, ?_, hfix⟩, trivial, .inr ⟨hmc, ?_, hnt, x, _, hm.symm, fun n => ?_⟩⟩
        · simp only [fixup_ranges, ranges_inline, ranges_btree]; rw [h3]; exact hn'
        · simp only [fixup_ranges, fixup_capacity, ranges_inline, ranges_btree, capacity_inline, capacity_btree]
          rw [h3]; omega
        · rw [h3]; omega
        · rw [h3]
          have := hd n
          simp only [List.nil_append] at this
          rw [this, hmem]; simp only [or_comm]

/-- With room for one more range, insertion never panics. -/
theorem insert_isSome {st : RangeSet} {item : Rng}
    (h : st.ranges.length < st.capacity ∨ (4 ≤ st.capacity ∧ RepOk st)) :
    ∃ st', st.insert item = some st' := by
  cases st with
  | btree m c => exact ⟨_, rfl⟩
  | inline l c =>
    have : l.length ≠ c := by
      rcases h with h | ⟨h1, h2⟩
      · simp only [ranges_inline, capacity_inline] at h; omega
      · simp only [RepOk, capacity_inline] at *; omega
    have := inlineInsert_isSome (s := item.1) (e := item.2) (pre := []) (l := l) this
    obtain ⟨l', hl'⟩ := Option.isSome_iff_exists.mp this
    exact ⟨_, by simp only [RangeSet.insert, hl']; rfl⟩

theorem removeUntil_spec {st : RangeSet} (h : Inv st) (k : Nat) :
    Inv (st.removeUntil k) ∧ (st.removeUntil k).capacity = st.capacity ∧
    (st.removeUntil k).ranges.length ≤ st.ranges.length ∧
    ∀ n, Mem n (st.removeUntil k).ranges ↔ Mem n st.ranges ∧ k < n := by
  obtain ⟨h1, h2, h3⟩ := h
  cases st with
  | inline l c =>
    obtain ⟨i1, i2, i3⟩ := inlineRemove_spec h1 k
    simp only [ranges_inline, capacity_inline, RepOk] at *
    refine ⟨⟨?_, ?_, ?_⟩, ?_, ?_, ?_⟩ <;> simp only [RangeSet.removeUntil, fixup_ranges,
      fixup_capacity, ranges_inline, capacity_inline]
    · exact i1
    · omega
    · exact fixup_rep (.inl (by simp only [ranges_inline]; omega))
    · exact i3
    · exact i2
  | btree l c =>
    obtain ⟨i1, i2, i3⟩ := btreeRemove_spec h1 c k h2
    simp only [ranges_btree, capacity_btree, RepOk] at *
    refine ⟨⟨?_, ?_, ?_⟩, ?_, ?_, ?_⟩ <;> simp only [RangeSet.removeUntil, fixup_ranges,
      fixup_capacity, ranges_btree, capacity_btree]
    · exact i1
    · omega
    · exact fixup_rep (.inr ⟨_, _, rfl⟩)
    · exact i3
    · exact i2

theorem mem_flatten (st : RangeSet) (n : Nat) : n ∈ st.flatten ↔ Mem n st.ranges := by
  simp only [RangeSet.flatten, List.mem_flatMap, List.mem_range'_1, Mem]
  constructor
  · rintro ⟨r, hr, h1, h2⟩; exact ⟨r, hr, h1, by omega⟩
  · rintro ⟨r, hr, h1, h2⟩; exact ⟨r, hr, h1, by omega⟩

end Verif.Ranges
