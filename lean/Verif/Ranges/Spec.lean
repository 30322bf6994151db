import Verif.Ranges.Lemmas

/-! Histories of range sets, shared by C05-C08. -/

namespace Verif.Ranges
open Verif

/-- The operations that change a range set. -/
inductive Op where
  | insert (s e : Nat)
  | removeUntil (n : Nat)
  deriving DecidableEq, Repr

/-- One operation; `none` is a panic. -/
def step (st : RangeSet) : Op → Option RangeSet
  | .insert s e => st.insert (s, e)
  | .removeUntil n => some (st.removeUntil n)

/-- A history of operations; `none` when one of them panics. -/
def run : RangeSet → List Op → Option RangeSet
  | st, [] => some st
  | st, op :: ops => (step st op).bind (fun st' => run st' ops)

/-- Ranges are never given backwards. -/
def Op.Ok : Op → Prop
  | .insert s e => s ≤ e
  | .removeUntil _ => True

/-- The mathematical effect of a history on a set of numbers, with no limit. -/
def effect (S : Nat → Prop) : List Op → (Nat → Prop)
  | [] => S
  | .insert s e :: ops => effect (fun n => S n ∨ (s ≤ n ∧ n < e)) ops
  | .removeUntil k :: ops => effect (fun n => S n ∧ k < n) ops

/-- Number of insertions in a history. -/
def inserts : List Op → Nat
  | [] => 0
  | .insert _ _ :: ops => inserts ops + 1
  | .removeUntil _ :: ops => inserts ops

theorem run_inv {st st' : RangeSet} (h : Inv st) {ops : List Op} (hok : ∀ op ∈ ops, op.Ok)
    (hr : run st ops = some st') : Inv st' ∧ st'.capacity = st.capacity := by
  induction ops generalizing st with
  | nil => simp only [run, Option.some.injEq] at hr; subst hr; exact ⟨h, rfl⟩
  | cons op ops ih =>
    simp only [run, Option.bind_eq_some_iff] at hr
    obtain ⟨st1, h1, h2⟩ := hr
    have hok' : ∀ op ∈ ops, op.Ok := fun o ho => hok o (by simp [ho])
    have : Inv st1 ∧ st1.capacity = st.capacity := by
      cases op with
      | insert s e =>
        have := insert_spec h (hok (.insert s e) (by simp)) h1
        exact ⟨this.1, this.2.1⟩
      | removeUntil k =>
        simp only [step, Option.some.injEq] at h1; subst h1
        have := removeUntil_spec h k
        exact ⟨this.1, this.2.1⟩
    have h3 := ih this.1 hok' h2
    exact ⟨h3.1, h3.2.trans this.2⟩

theorem effect_mono {S T : Nat → Prop} (h : ∀ n, S n → T n) (ops : List Op) (n : Nat) :
    effect S ops n → effect T ops n := by
  induction ops generalizing S T with
  | nil => exact h n
  | cons op ops ih =>
    cases op with
    | insert s e => exact ih (fun n hn => hn.imp (h n) id)
    | removeUntil k => exact ih (fun n hn => ⟨h n hn.1, hn.2⟩)

theorem effect_congr {S T : Nat → Prop} (h : ∀ n, S n ↔ T n) (ops : List Op) (n : Nat) :
    effect S ops n ↔ effect T ops n :=
  ⟨effect_mono (fun n => (h n).mp) ops n, effect_mono (fun n => (h n).mpr) ops n⟩

/-- A history with no more insertions than the capacity computes the exact set. -/
theorem run_exact {st : RangeSet} (h : Inv st) {ops : List Op} (hok : ∀ op ∈ ops, op.Ok)
    (hcap : st.ranges.length + inserts ops ≤ st.capacity) :
    ∃ st', run st ops = some st' ∧ ∀ n, Mem n st'.ranges ↔ effect (fun n => Mem n st.ranges) ops n := by
  induction ops generalizing st with
  | nil => exact ⟨st, rfl, fun n => Iff.rfl⟩
  | cons op ops ih =>
    have hok' : ∀ op ∈ ops, op.Ok := fun o ho => hok o (by simp [ho])
    cases op with
    | insert s e =>
      simp only [inserts] at hcap
      obtain ⟨st1, h1⟩ := insert_isSome (st := st) (item := (s, e)) (.inl (by omega))
      have hse : s ≤ e := hok (.insert s e) (by simp)
      obtain ⟨i1, i2, i3⟩ := insert_spec h hse h1
      have i3 : st1.ranges = ins s e st.ranges := by
        rcases i3 with h | h
        · exact h
        · have := h.1; omega
      have hl := ins_length_le s e st.ranges
      obtain ⟨st2, j1, j2⟩ := ih i1 hok' (by rw [i3, i2]; omega)
      refine ⟨st2, by simp [run, step, h1, j1], fun n => ?_⟩
      rw [j2]
      refine effect_congr (fun n => ?_) ops n
      rw [i3, ins_mem hse h.1, or_comm]
    | removeUntil k =>
      obtain ⟨i1, i2, i3, i4⟩ := removeUntil_spec h k
      simp only [inserts] at hcap
      obtain ⟨st2, j1, j2⟩ := ih i1 hok' (by omega)
      refine ⟨st2, by simp [run, step, j1], fun n => ?_⟩
      rw [j2]
      exact effect_congr i4 ops n

/-- Whatever the capacity, nothing is ever invented. -/
theorem run_sub {st st' : RangeSet} (h : Inv st) {ops : List Op} (hok : ∀ op ∈ ops, op.Ok)
    (hr : run st ops = some st') (n : Nat) (hm : Mem n st'.ranges) :
    effect (fun n => Mem n st.ranges) ops n := by
  induction ops generalizing st with
  | nil => simp only [run, Option.some.injEq] at hr; subst hr; exact hm
  | cons op ops ih =>
    simp only [run, Option.bind_eq_some_iff] at hr
    obtain ⟨st1, h1, h2⟩ := hr
    have hok' : ∀ op ∈ ops, op.Ok := fun o ho => hok o (by simp [ho])
    cases op with
    | insert s e =>
      have hse : s ≤ e := hok (.insert s e) (by simp)
      obtain ⟨i1, i2, i3⟩ := insert_spec h hse h1
      refine effect_mono (fun n hn => ?_) ops n (ih i1 hok' h2)
      rcases i3 with i3 | ⟨_, _, _, x, t, _, i3⟩
      · rw [i3, ins_mem hse h.1] at hn; exact hn.symm
      · exact ((i3 n).mp hn).1
    | removeUntil k =>
      simp only [step, Option.some.injEq] at h1; subst h1
      obtain ⟨i1, i2, i3, i4⟩ := removeUntil_spec h k
      exact effect_mono (fun n hn => (i4 n).mp hn) ops n (ih i1 hok' h2)

/-- With a capacity of at least four, no history panics. -/
theorem run_isSome {st : RangeSet} (h : Inv st) {ops : List Op} (hok : ∀ op ∈ ops, op.Ok)
    (hcap : 4 ≤ st.capacity) : ∃ st', run st ops = some st' := by
  induction ops generalizing st with
  | nil => exact ⟨st, rfl⟩
  | cons op ops ih =>
    have hok' : ∀ op ∈ ops, op.Ok := fun o ho => hok o (by simp [ho])
    cases op with
    | insert s e =>
      obtain ⟨st1, h1⟩ := insert_isSome (st := st) (item := (s, e)) (.inr ⟨hcap, h.2.2⟩)
      obtain ⟨i1, i2, _⟩ := insert_spec h (hok (.insert s e) (by simp)) h1
      obtain ⟨st2, h2⟩ := ih i1 hok' (by omega)
      exact ⟨st2, by simp [run, step, h1, h2]⟩
    | removeUntil k =>
      obtain ⟨i1, i2, _⟩ := removeUntil_spec h k
      obtain ⟨st2, h2⟩ := ih i1 hok' (by omega)
      exact ⟨st2, by simp [run, step, h2]⟩

theorem effect_inserts (S : Nat → Prop) (items : List Rng) (n : Nat) :
    effect S (items.map (fun r => Op.insert r.1 r.2)) n ↔
      S n ∨ ∃ r ∈ items, r.1 ≤ n ∧ n < r.2 := by
  induction items generalizing S with
  | nil => simp [effect]
  | cons r t ih =>
    simp only [List.map_cons, effect, ih, List.mem_cons, exists_eq_or_imp, or_assoc]

theorem inserts_map (items : List Rng) :
    inserts (items.map (fun r => Op.insert r.1 r.2)) = items.length := by
  induction items with
  | nil => rfl
  | cons r t ih => simp [inserts, ih]

end Verif.Ranges
