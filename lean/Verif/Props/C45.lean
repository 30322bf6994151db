import Verif.Small.Minmax

/-!
# C45: Windowed minimum/maximum filter is sound
-/

namespace Verif.C45
open Verif.Minmax

variable {T : Type}

/-- What is asked of the order of values. -/
structure Order (le : T → T → Bool) : Prop where
  refl : ∀ a, le a a = true
  trans : ∀ a b c, le a b = true → le b c = true → le a c = true
  total : ∀ a b, le a b = true ∨ le b a = true

/-- Samples are taken in the order of time (latest first in the list). -/
def InTime (first : Sample T) : List (Sample T) → Prop
  | [] => True
  | v :: l => (∀ w ∈ l ++ [first], w.time ≤ v.time) ∧ InTime first l

/-- The estimate `e` is the best of all samples from the one it was taken from on. -/
def BestSince (le : T → T → Bool) (hist : List (Sample T)) (e : Sample T) : Prop :=
  ∃ newer older, hist = newer ++ e :: older ∧ ∀ w ∈ newer, le e.value w.value = true

/-- The invariant. -/
structure Inv (le : T → T → Bool) (hist : List (Sample T)) (f : Filter T) : Prop where
  b0 : BestSince le hist f.e0
  b1 : BestSince le hist f.e1
  b2 : BestSince le hist f.e2
  v01 : le f.e0.value f.e1.value = true
  v12 : le f.e1.value f.e2.value = true
  t01 : f.e0.time ≤ f.e1.time
  t12 : f.e1.time ≤ f.e2.time

theorem bestSince_new (le : T → T → Bool) (hist : List (Sample T)) (v : Sample T) : BestSince le (v :: hist) v :=
  ⟨[], hist, rfl, by simp⟩

theorem BestSince.cons {le : T → T → Bool} {hist : List (Sample T)} {e : Sample T} (h : BestSince le hist e) (v : Sample T)
    (hv : le e.value v.value = true) : BestSince le (v :: hist) e := by
  obtain ⟨n, o, h1, h2⟩ := h
  refine ⟨v :: n, o, by rw [h1]; rfl, ?_⟩
  intro w hw
  rcases List.mem_cons.mp hw with hw | hw
  · rw [hw]; exact hv
  · exact h2 w hw

theorem BestSince.mem {le : T → T → Bool} {hist : List (Sample T)} {e : Sample T} (h : BestSince le hist e) : e ∈ hist := by
  obtain ⟨n, o, h1, _⟩ := h
  rw [h1]; simp

theorem inv_reset {le : T → T → Bool} (ho : Order le) (hist : List (Sample T)) (v : Sample T) :
    Inv le (v :: hist) (reset v.time v.value) :=
  ⟨bestSince_new le hist v, bestSince_new le hist v, bestSince_new le hist v, ho.refl _, ho.refl _, Nat.le_refl _, Nat.le_refl _⟩

theorem inv_running {le : T → T → Bool} (ho : Order le) (quarter half : Nat → Nat) (win : Nat) (hist : List (Sample T))
    (f : Filter T) (v : Sample T) (hi : Inv le hist f) (ht : ∀ w ∈ hist, w.time ≤ v.time) :
    Inv le (v :: hist) (running le quarter half f win v) ∧ v.time - (running le quarter half f win v).e0.time ≤ win := by
  have ht0 := ht _ hi.b0.mem
  have ht1 := ht _ hi.b1.mem
  have ht2 := ht _ hi.b2.mem
  unfold running
  split
  · refine ⟨inv_reset ho hist v, ?_⟩
    simp [reset]
  · rename_i hc
    have hc1 : le v.value f.e0.value = false := by
      cases h : le v.value f.e0.value
      · rfl
      · exact absurd (.inl h) hc
    have hc2 : v.time - f.e2.time ≤ win := by
      apply Nat.le_of_not_lt
      intro h; exact hc (.inr h)
    have ge : ∀ a : T, le v.value a = false → le a v.value = true := by
      intro a ha
      rcases ho.total v.value a with h | h
      · rw [ha] at h; cases h
      · exact h
    have hr : Inv le (v :: hist) (replace le f v) ∧ le (replace le f v).e2.value v.value = true ∧
        (replace le f v).e2.time ≤ v.time ∧ v.time - (replace le f v).e2.time ≤ win := by
      unfold replace
      split
      · exact ⟨⟨hi.b0.cons v (ge _ hc1), bestSince_new _ _ _, bestSince_new _ _ _, ge _ hc1, ho.refl _, ht0, Nat.le_refl _⟩,
          ho.refl _, Nat.le_refl _, by simp⟩
      · rename_i h1
        have h1 : le v.value f.e1.value = false := by simpa using h1
        split
        · exact ⟨⟨hi.b0.cons v (ge _ hc1), hi.b1.cons v (ge _ h1), bestSince_new _ _ _, hi.v01, ge _ h1, hi.t01, ht1⟩,
            ho.refl _, Nat.le_refl _, by simp⟩
        · rename_i h2
          have h2 : le v.value f.e2.value = false := by simpa using h2
          exact ⟨⟨hi.b0.cons v (ge _ hc1), hi.b1.cons v (ge _ h1), hi.b2.cons v (ge _ h2), hi.v01, hi.v12, hi.t01, hi.t12⟩,
            ge _ h2, ht2, hc2⟩
    obtain ⟨hr, hv2, ht2', hw2⟩ := hr
    generalize replace le f v = g at hr hv2 ht2' hw2
    have hv1 : le g.e1.value v.value = true := ho.trans _ _ _ hr.v12 hv2
    have hv0 : le g.e0.value v.value = true := ho.trans _ _ _ hr.v01 hv1
    have h01 := hr.t01
    have h12 := hr.t12
    unfold subwinUpdate
    simp only
    split
    · unfold shiftAgain
      simp only
      split
      · exact ⟨⟨hr.b2, bestSince_new _ _ _, bestSince_new _ _ _, hv2, ho.refl _, ht2', Nat.le_refl _⟩, hw2⟩
      · rename_i h3
        exact ⟨⟨hr.b1, hr.b2, bestSince_new _ _ _, hr.v12, hv2, h12, ht2'⟩, by simp only; omega⟩
    · rename_i h3
      split
      · exact ⟨⟨hr.b0, bestSince_new _ _ _, bestSince_new _ _ _, hv0, ho.refl _, by simp only; omega, Nat.le_refl _⟩,
          by simp only; omega⟩
      · split
        · exact ⟨⟨hr.b0, hr.b1, bestSince_new _ _ _, hr.v01, hv1, h01, by simp only; omega⟩, by simp only; omega⟩
        · exact ⟨hr, by omega⟩

theorem inv_feed {le : T → T → Bool} (ho : Order le) (quarter half : Nat → Nat) (win : Nat) (first : Sample T) :
    ∀ l : List (Sample T), InTime first l → Inv le (l ++ [first]) (feed le quarter half win first l)
  | [], _ => inv_reset ho [] first
  | v :: l, h => (inv_running ho quarter half win _ _ v (inv_feed ho quarter half win first l h.2) h.1).1

/-- After any samples the estimate is the best of all samples taken since its own, which
is one of them; the three estimates are ordered by value and by age. -/
theorem sound {le : T → T → Bool} (ho : Order le) (quarter half : Nat → Nat) (win : Nat) (first : Sample T)
    (l : List (Sample T)) (h : InTime first l) :
    let f := feed le quarter half win first l
    BestSince le (l ++ [first]) f.e0 ∧ f.estimate = f.e0.value ∧
      (le f.e0.value f.e1.value = true ∧ le f.e1.value f.e2.value = true) ∧
      f.e0.time ≤ f.e1.time ∧ f.e1.time ≤ f.e2.time ∧ f.e1 ∈ l ++ [first] ∧ f.e2 ∈ l ++ [first] := by
  have hi := inv_feed ho quarter half win first l h
  exact ⟨hi.b0, rfl, ⟨hi.v01, hi.v12⟩, hi.t01, hi.t12, hi.b1.mem, hi.b2.mem⟩

/-- The estimate is never worse than the newest sample, and its sample is never older
than the window. -/
theorem fresh {le : T → T → Bool} (ho : Order le) (quarter half : Nat → Nat) (win : Nat) (first v : Sample T)
    (l : List (Sample T)) (h : InTime first (v :: l)) :
    let f := feed le quarter half win first (v :: l)
    le f.estimate v.value = true ∧ v.time - f.e0.time ≤ win := by
  have hi := inv_feed ho quarter half win first (v :: l) h
  refine ⟨?_, (inv_running ho quarter half win _ _ v (inv_feed ho quarter half win first l h.2) h.1).2⟩
  obtain ⟨n, o, h1, h2⟩ := hi.b0
  cases n with
  | nil =>
    rw [List.cons_append, List.nil_append, List.cons.injEq] at h1
    show le (feed le quarter half win first (v :: l)).e0.value v.value = true
    rw [← h1.1]; exact ho.refl _
  | cons a n =>
    rw [List.cons_append, List.cons_append, List.cons.injEq] at h1
    show le (feed le quarter half win first (v :: l)).e0.value v.value = true
    have := h2 a (by simp)
    rw [← h1.1] at this; exact this

/-- So if the window has room for all samples since the best one, the estimate is the
best of all of them: it is at least as good as any sample that is not older. -/
theorem best_of_recent {le : T → T → Bool} (ho : Order le) (quarter half : Nat → Nat) (win : Nat) (first : Sample T)
    (l : List (Sample T)) (h : InTime first l) :
    ∀ w ∈ l ++ [first], (feed le quarter half win first l).e0.time < w.time →
      le (feed le quarter half win first l).estimate w.value = true := by
  have hi := inv_feed ho quarter half win first l h
  obtain ⟨n, o, h1, h2⟩ := hi.b0
  have older : ∀ (l : List (Sample T)) (n o : List (Sample T)) (e : Sample T), InTime first l → l ++ [first] = n ++ e :: o →
      ∀ w ∈ o, w.time ≤ e.time := by
    intro l
    induction l with
    | nil =>
      intro n o e _ h1 w hw
      cases n with
      | nil =>
        rw [List.nil_append, List.nil_append, List.cons.injEq] at h1
        rw [← h1.2] at hw; cases hw
      | cons a n => simp at h1
    | cons a l ih =>
      intro n o e hin h1 w hw
      cases n with
      | nil =>
        rw [List.cons_append, List.nil_append, List.cons.injEq] at h1
        rw [← h1.1]
        apply hin.1
        rw [h1.2]; exact hw
      | cons b n =>
        rw [List.cons_append, List.cons_append, List.cons.injEq] at h1
        exact ih n o e hin.2 h1.2 w hw
  intro w hw hlt
  rw [h1] at hw
  rcases List.mem_append.mp hw with hw | hw
  · exact h2 w hw
  · rcases List.mem_cons.mp hw with hw | hw
    · rw [hw] at hlt; omega
    · have := older l n o _ h h1 w hw; omega

/-- Both orders qualify. -/
theorem order_min : Order (T := Nat) (fun a b => decide (a ≤ b)) :=
  ⟨by simp, by intro a b c h1 h2; simp at *; omega, by intro a b; simp; omega⟩

theorem order_max : Order (T := Nat) (fun a b => decide (a ≥ b)) :=
  ⟨by simp, by intro a b c h1 h2; simp at *; omega, by intro a b; simp; omega⟩

/-! A minimum is kept until it leaves the window, then the next best takes its place. -/

def q (w : Nat) := w / 4
def hf (w : Nat) := w / 2
example : (feed (fun a b : Nat => decide (a ≤ b)) q hf 100 ⟨0, 25⟩ [⟨90, 40⟩, ⟨60, 35⟩, ⟨30, 30⟩]).estimate = 25 := by decide
example : (feed (fun a b : Nat => decide (a ≤ b)) q hf 100 ⟨0, 25⟩ [⟨101, 45⟩, ⟨90, 40⟩, ⟨60, 35⟩, ⟨30, 30⟩]).estimate = 30 := by
  decide
/-! The filter is approximate: here 30 is still in the window but the estimate is 31,
since one estimate had been kept from the second quarter only. -/
example : (feed (fun a b : Nat => decide (a ≤ b)) q hf 100 ⟨0, 25⟩ [⟨101, 45⟩, ⟨30, 31⟩, ⟨10, 30⟩]).estimate = 31 := by decide
example : (feed (fun a b : Nat => decide (a ≥ b)) q hf 100 ⟨0, 25⟩ [⟨60, 20⟩, ⟨30, 31⟩]).estimate = 31 := by decide

end Verif.C45
