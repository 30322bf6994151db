import Verif.Small.Pmtud

/-!
# C43: Path MTU discovery finds a working size
-/

namespace Verif.C43
open Verif.Pmtud

/-! ### Safety: all networks, all runs -/

/-- Discovery together with the probe on its way and the sizes acknowledged so far. -/
structure Sim where
  s : St
  out : Option Nat := none
  acked : List Nat := []

/-- Steps: send a probe if one is due; learn the fate of the probe; the application asks
for revalidation. -/
inductive Ev where
  | send
  | fate (delivered : Bool)
  | revalidate

def Sim.step (x : Sim) : Ev → Sim
  | .send => match x.s.sendProbe with
    | none => x
    | some (n, s) => { x with s := s, out := some n }
  | .fate d => match x.out with
    | none => x
    | some n => { s := x.s.report n d, out := none, acked := if d then n :: x.acked else x.acked }
  | .revalidate => { x with s := x.s.revalidate }

def Sim.run (x : Sim) (l : List Ev) : Sim := l.foldl Sim.step x

structure Inv (mx mp : Nat) (x : Sim) : Prop where
  maxMtu : x.s.maxMtu = mx
  probes : x.s.maxProbes = mp
  probe : minMtu ≤ x.s.probeSize ∧ x.s.probeSize ≤ mx
  success : ∀ g, x.s.success = some g → minMtu ≤ g ∧ g ≤ mx ∧ g ∈ x.acked
  failed : ∀ f, x.s.failed = some f → minMtu ≤ f ∧ f ≤ mx
  done : ∀ p, x.s.pmtu = some p → x.s.success = some p ∧ x.s.probeSize = p ∧ x.out = none ∧
    (∀ f, x.s.failed = some f → f = p + 1)
  search : x.s.pmtu = none → (∀ g, x.s.success = some g → g < x.s.probeSize) ∧
    (∀ f, x.s.failed = some f → x.s.probeSize < f ∨ f = minMtu) ∧ (x.s.failed = none → x.s.success = none)
  stop : x.s.failed = some minMtu → x.s.success = none ∧ x.out = none
  failures : x.s.failures < mp
  flight : x.out.isSome = x.s.inFlight
  current : ∀ n, x.out = some n → n = x.s.probeSize

theorem inv_new {mx : Nat} (h : minMtu ≤ mx) (probes : Nat) :
    Inv mx (if probes = 0 then maxProbesDefault else probes) { s := new mx probes } := by
  constructor <;> simp [new]
  · exact h
  · simp only [maxProbesDefault]; split <;> omega

theorem inv_send {mx mp : Nat} {x : Sim} (h : Inv mx mp x) : Inv mx mp (x.step .send) := by
  unfold Sim.step St.sendProbe
  by_cases c : x.s.shouldProbe = true
  · simp only [c, if_true]
    unfold St.shouldProbe at c
    simp only [Bool.and_eq_true, Bool.not_eq_true', Option.isNone_iff_eq_none, bne_iff_ne, ne_eq] at c
    obtain ⟨⟨c1, c2⟩, c3⟩ := c
    exact ⟨h.maxMtu, h.probes, h.probe, h.success, h.failed, (by intro p hp; simp only [c2] at hp; cases hp), h.search,
      (by intro hf; exact absurd hf c3), h.failures, rfl, (by intro n hn; simp at hn; exact hn.symm)⟩
  · simp only [c]; exact h

theorem inv_revalidate {mx mp : Nat} {x : Sim} (h : Inv mx mp x) : Inv mx mp (x.step .revalidate) := by
  unfold Sim.step St.revalidate
  cases hp : x.s.pmtu with
  | none => simp only; exact h
  | some p =>
    obtain ⟨d1, d2, d3, d4⟩ := h.done p hp
    obtain ⟨s1, s2, s3⟩ := h.success p d1
    have hmin : min p x.s.maxMtu = p := by rw [h.maxMtu]; omega
    have hne : x.s.failed ≠ some minMtu := by
      intro hf; have := (h.stop hf).1; rw [d1] at this; cases this
    constructor
    · exact h.maxMtu
    · exact h.probes
    · simp only [St.setProbeSize, hmin]; exact ⟨s1, s2⟩
    · simp [St.setProbeSize]
    · exact h.failed
    · simp [St.setProbeSize]
    · intro _
      refine ⟨by simp [St.setProbeSize], ?_, by simp [St.setProbeSize]⟩
      intro f hf
      simp only [St.setProbeSize, hmin]
      have := d4 f hf
      exact .inl (by omega)
    · intro hf; exact absurd hf hne
    · have := h.failures; show 0 < mp; omega
    · exact h.flight
    · intro n hn; rw [d3] at hn; cases hn

theorem inv_fate {mx mp : Nat} {x : Sim} (d : Bool) (h : Inv mx mp x) : Inv mx mp (x.step (.fate d)) := by
  unfold Sim.step
  cases ho : x.out with
  | none => simp only; exact h
  | some n =>
    simp only
    have hn := h.current n ho
    have hpm : x.s.pmtu = none := by
      cases hp : x.s.pmtu with
      | none => rfl
      | some p => have := (h.done p hp).2.2.1; rw [ho] at this; cases this
    obtain ⟨q1, q2, q3⟩ := h.search hpm
    have hpr := h.probe
    have hfl := h.failures
    have hmp := h.probes
    have hmx := h.maxMtu
    have hns : x.s.failed ≠ some minMtu := by
      intro hf; have := (h.stop hf).2; rw [ho] at this; cases this
    have q2' : ∀ f, x.s.failed = some f → x.s.probeSize < f := by
      intro f hf
      rcases q2 f hf with h | h
      · exact h
      · rw [h] at hf; exact absurd hf hns
    cases d with
    | true =>
      unfold St.report St.successfulProbe
      simp only [if_true]
      have hg' : St.newSuccess { x.s with inFlight := x.s.inFlight } n = n := by
        have e : min n x.s.maxMtu = n := by rw [hmx, hn]; omega
        unfold St.newSuccess
        rw [e]
        cases hs : x.s.success with
        | none => rfl
        | some g => have := q1 g hs; show Nat.max n g = n; exact Nat.max_eq_left (by omega)
      have hg' : x.s.newSuccess n = n := hg'
      unfold St.updateProbeSize
      simp only [hg']
      cases hf : x.s.failed with
      | none =>
        simp only [St.setPmtu]
        constructor <;> simp only [Option.some.injEq, reduceCtorEq, false_implies, implies_true, hmp, hmx, and_true, true_and, forall_eq', Option.isSome_none, hf, not_false_eq_true]
        · rw [hn]; exact hpr
        · exact ⟨by rw [hn]; exact hpr.1, by rw [hn]; exact hpr.2, by simp⟩
        · omega
      | some f =>
        have hlt := q2' f hf
        have hff := h.failed f hf
        have c1 : ¬ (f ≤ n) := by omega
        simp only [c1, if_false]
        by_cases c2 : f - n ≤ 1
        · simp only [c2, if_true, St.setPmtu]
          constructor <;> simp only [Option.some.injEq, reduceCtorEq, false_implies, implies_true, hmp, hmx, and_true, true_and, forall_eq', Option.isSome_none, hf, not_false_eq_true]
          · rw [hn]; exact hpr
          · exact ⟨by rw [hn]; exact hpr.1, by rw [hn]; exact hpr.2, by simp⟩
          · exact hff
          · omega
          · intro h0; simp only [minMtu] at *; omega
          · omega
        · simp only [c2, if_false]
          constructor <;> simp only [Option.some.injEq, reduceCtorEq, false_implies, implies_true, hmp, hmx, and_true, true_and, forall_eq', Option.isSome_none, hf, hpm, not_false_eq_true, forall_const]
          · simp only [minMtu] at *; omega
          · exact ⟨by rw [hn]; exact hpr.1, by rw [hn]; exact hpr.2, by simp⟩
          · exact hff
          · omega
          · intro h0; simp only [minMtu] at *; omega
          · omega
    | false =>
      unfold St.report St.failedProbe
      have e : max n minMtu = n := by rw [hn]; simp only [minMtu] at *; omega
      simp only [Bool.false_eq_true, if_false, e]
      by_cases c : x.s.failures + 1 < x.s.maxProbes
      · simp only [c, if_true]
        exact ⟨hmx, hmp, hpr, h.success, h.failed, (by intro p hp; simp only [hpm] at hp; cases hp), h.search,
          (fun hf => absurd hf hns), (by simp only; omega), rfl, (by intro m hm; cases hm)⟩
      · simp only [c, if_false]
        have hf' : St.newFailed { x.s with failures := x.s.failures + 1 } n = n := by
          unfold St.newFailed
          cases hf : x.s.failed with
          | none => rfl
          | some f => have := q2' f hf; show min f n = n; omega
        unfold St.updateProbeSize
        simp only [hf']
        cases hs : x.s.success with
        | none =>
          simp only
          constructor <;> simp only [Option.some.injEq, reduceCtorEq, false_implies, implies_true, hmp, hmx, and_true, true_and, forall_eq', Option.isSome_none, hs, hpm, not_false_eq_true, forall_const, and_self]
          · simp only [minMtu] at *; omega
          · simp only [minMtu] at *; omega
          · simp only [minMtu] at *; omega
          · omega
        | some g =>
          have hgn := q1 g hs
          have hgg := h.success g hs
          have c1 : ¬ (n ≤ g) := by omega
          simp only [c1, if_false]
          by_cases c2 : n - g ≤ 1
          · simp only [c2, if_true, St.setPmtu]
            constructor <;> simp only [Option.some.injEq, reduceCtorEq, false_implies, implies_true, hmp, hmx, and_true, true_and, forall_eq', Option.isSome_none, hs, hpm, not_false_eq_true, forall_const, and_self]
            · exact ⟨hgg.1, hgg.2.1⟩
            · exact hgg
            · simp only [minMtu] at *; omega
            · omega
            · intro h0; simp only [minMtu] at *; omega
            · omega
          · simp only [c2, if_false]
            constructor <;> simp only [Option.some.injEq, reduceCtorEq, false_implies, implies_true, hmp, hmx, and_true, true_and, forall_eq', Option.isSome_none, hs, hpm, not_false_eq_true, forall_const, and_self]
            · simp only [minMtu] at *; omega
            · exact hgg
            · simp only [minMtu] at *; omega
            · omega
            · intro h0; simp only [minMtu] at *; omega
            · omega

theorem inv_run {mx mp : Nat} : ∀ (l : List Ev) (x : Sim), Inv mx mp x → Inv mx mp (x.run l)
  | [], _, h => h
  | e :: l, x, h => by
    refine inv_run l (x.step e) ?_
    cases e with
    | send => exact inv_send h
    | fate d => exact inv_fate d h
    | revalidate => exact inv_revalidate h

/-- Whatever the network does and whenever the application revalidates: the size in use is
at least 1200 and at most the maximum, and beyond 1200 only if a probe of this size was
acknowledged; probes never exceed the maximum; a result is a size that was acknowledged;
the 8-bit counter of failures stays below the number of probes. -/
theorem safe (mx probes : Nat) (hmax : minMtu ≤ mx) (l : List Ev) :
    let x := Sim.run { s := new mx probes } l
    (1200 ≤ x.s.currentMtu ∧ x.s.currentMtu ≤ mx) ∧ (x.s.currentMtu = 1200 ∨ x.s.currentMtu ∈ x.acked) ∧
      (1200 ≤ x.s.probeSize ∧ x.s.probeSize ≤ mx) ∧
      (∀ p, x.s.pmtu = some p → p ∈ x.acked ∧ x.s.currentMtu = p) ∧
      x.s.failures < (if probes = 0 then 3 else probes) := by
  have h := inv_run l { s := new mx probes } (inv_new hmax probes)
  generalize Sim.run { s := new mx probes } l = x at h
  have h1 := h.success
  unfold St.currentMtu
  refine ⟨?_, ?_, h.probe, ?_, h.failures⟩
  · cases hs : x.s.success with
    | none => simp [minMtu] at *; exact hmax
    | some g => obtain ⟨a, b, _⟩ := h1 g hs; exact ⟨a, b⟩
  · cases hs : x.s.success with
    | none => left; rfl
    | some g => right; exact (h1 g hs).2.2
  · intro p hp
    obtain ⟨d1, _⟩ := h.done p hp
    rw [d1]
    exact ⟨(h1 p d1).2.2, rfl⟩

/-- Nothing is probed any more once a size is found, until revalidation. -/
theorem at_rest (mx probes : Nat) (hmax : minMtu ≤ mx) (l : List Ev) (p : Nat)
    (h : (Sim.run { s := new mx probes } l).s.pmtu = some p) :
    (Sim.run { s := new mx probes } l).out = none ∧ (Sim.run { s := new mx probes } l).s.sendProbe = none := by
  refine ⟨((inv_run l { s := new mx probes } (inv_new hmax probes)).done p h).2.2.1, ?_⟩
  unfold St.sendProbe St.shouldProbe
  rw [h]; simp

/-! ### Convergence -/

/-- A network with true size `t`: nothing larger gets through; probes up to `t` may get
lost, too. -/
def Limit (t : Nat) (net : Nat → Bool) : Prop := ∀ n, net n = true → n ≤ t

/-- All probes up to `t` get through. -/
def Delivers (t : Nat) (net : Nat → Bool) : Prop := ∀ n, minMtu ≤ n → n ≤ t → net n = true

/-- Not more than `m - 1` losses of deliverable probes in succession. -/
def Fair (t m : Nat) (l : List (Nat → Bool)) : Prop :=
  ∀ a w b, l = a ++ w ++ b → w.length = m → ∃ net ∈ w, Delivers t net

theorem Fair.suffix {t m : Nat} {a l : List (Nat → Bool)} (h : Fair t m (a ++ l)) : Fair t m l := by
  intro x w b e hw
  exact h (a ++ x) w b (by rw [e]; simp) hw

/-- States on the way to `T`; no size beyond `B` is probed, and `D` bounds the number of sizes still to be decided. -/
structure Search (T B D : Nat) (s : St) : Prop where
  rest : s.inFlight = false
  undecided : s.pmtu = none
  failures : s.failures < s.maxProbes
  target : minMtu ≤ T
  top : B ≤ s.maxMtu
  range : s.probeSize ≤ B
  bound : ∀ f, s.failed = some f → f ≤ B + 1
  floor : ∀ g, s.success = some g → minMtu ≤ g
  kind : (∃ f g, s.failed = some f ∧ s.success = some g ∧ g ≤ T ∧ T < f ∧ s.probeSize = (g + f) / 2 ∧ 2 ≤ f - g ∧ f - g ≤ 2 ^ D) ∨
    (∃ f, s.failed = some f ∧ s.success = none ∧ T < f ∧ s.probeSize = (minMtu + f) / 2 ∧ 1 ≤ D ∧ f - minMtu ≤ 2 ^ (D - 1)) ∨
    ((s.failed = none ∨ s.failed = some (s.probeSize + 1)) ∧ s.success = none ∧ T ≤ s.probeSize ∧ 2 ≤ D ∧
      s.probeSize - minMtu ≤ 2 ^ (D - 2))

/-- Found. -/
structure Found (T : Nat) (s : St) : Prop where
  pmtu : s.pmtu = some T
  current : s.success = some T

theorem found_round {T : Nat} {s : St} (net : Nat → Bool) (h : Found T s) : s.round net = s := by
  unfold St.round St.sendProbe St.shouldProbe
  rw [h.pmtu]; simp

theorem found_rounds {T : Nat} : ∀ (l : List (Nat → Bool)) (s : St), Found T s → s.rounds l = s
  | [], _, _ => rfl
  | net :: l, s, h => by
    show (s.round net).rounds l = s
    rw [found_round net h]; exact found_rounds l s h

theorem pow_pos_succ (D : Nat) (h : 1 ≤ D) : 2 ^ D = 2 * 2 ^ (D - 1) := by
  obtain ⟨k, rfl⟩ : ∃ k, D = k + 1 := ⟨D - 1, by omega⟩
  rw [Nat.add_sub_cancel, Nat.pow_succ]; omega

/-- A state on the way sends a probe. -/
theorem search_sends {T B D : Nat} {s : St} (h : Search T B D s) :
    s.sendProbe = some (s.probeSize, { s with inFlight := true }) := by
  have hne : s.failed ≠ some minMtu := by
    intro hf
    have ht := h.target
    rcases h.kind with ⟨f, g, h1, h2, h3, h4, _⟩ | ⟨f, h1, _, h3, _⟩ | ⟨h1, _, h3, _⟩
    · rw [hf] at h1; cases h1; omega
    · rw [hf] at h1; cases h1; omega
    · rcases h1 with h1 | h1
      · rw [hf] at h1; cases h1
      · rw [hf] at h1; simp only [Option.some.injEq] at h1; omega
  unfold St.sendProbe St.shouldProbe
  rw [h.rest, h.undecided]
  simp [hne]

theorem half_le (a f X : Nat) (h : f - a ≤ 2 * X) : (a + f) / 2 - a ≤ X := by omega

theorem search_pos {T B D : Nat} {s : St} (h : Search T B D s) : 1 ≤ D ∧ minMtu ≤ s.probeSize := by
  have ht := h.target
  rcases h.kind with ⟨f, g, h1, h2, h3, h4, h5, h6, h7⟩ | ⟨f, h1, h2, h3, h4, h5, h6⟩ | ⟨h1, h2, h3, h4, h5⟩
  · refine ⟨?_, ?_⟩
    · rcases Nat.eq_zero_or_pos D with h0 | h0
      · rw [h0] at h7; simp at h7; omega
      · exact h0
    · have := h.floor g h2; omega
  · exact ⟨h5, by omega⟩
  · exact ⟨by omega, by omega⟩

/-- A probe that gets through decides a size. -/
theorem success_step {T B D : Nat} {s : St} (h : Search T B D s) (hle : s.probeSize ≤ T) :
    let s' := ({ s with inFlight := true } : St).successfulProbe s.probeSize
    s'.maxProbes = s.maxProbes ∧ s'.maxMtu = s.maxMtu ∧
      (Found T s' ∨ (1 ≤ D ∧ Search T B (D - 1) s' ∧ s'.failures = 0)) := by
  have hr := h.range
  have htop := h.top
  have hb := h.bound
  have hlow := (search_pos h).2
  have hfloor := h.floor
  have hfl := h.failures
  have ht := h.target
  unfold St.successfulProbe St.updateProbeSize St.newSuccess
  have e : min s.probeSize s.maxMtu = s.probeSize := by omega
  rcases h.kind with ⟨f, g, h1, h2, h3, h4, h5, h6, h7⟩ | ⟨f, h1, h2, h3, h4, h5, h6⟩ | ⟨h1, h2, h3, h4, h5⟩
  · have hb := hb f h1
    have e2 : max s.probeSize g = s.probeSize := by omega
    simp only [h1, h2, e, e2]
    have c1 : ¬ (f ≤ s.probeSize) := by omega
    simp only [c1, if_false]
    by_cases c2 : f - s.probeSize ≤ 1
    · simp only [c2, if_true, St.setPmtu]
      refine ⟨by first | rfl | trivial, by first | rfl | trivial, .inl ⟨?_, ?_⟩⟩
      · simp only [Option.some.injEq]; omega
      · simp only [Option.some.injEq]; omega
    · simp only [c2, if_false]
      have hD : 1 ≤ D := by
        rcases Nat.eq_zero_or_pos D with h0 | h0
        · rw [h0] at h7; simp at h7; omega
        · exact h0
      have hp := pow_pos_succ D hD
      refine ⟨by first | rfl | trivial, by first | rfl | trivial, .inr ⟨hD, ⟨rfl, h.undecided, by simp only; omega, ht, htop, by simp only; omega, by intro f hf; simp only [Option.some.injEq] at hf; omega, by intro g hg; simp only [Option.some.injEq] at hg; omega, .inl ⟨f, s.probeSize, rfl, rfl, hle, h4, rfl, by omega, by omega⟩⟩, by first | rfl | trivial⟩⟩
  · have hb := hb f h1
    simp only [h1, h2, e]
    have c1 : ¬ (f ≤ s.probeSize) := by omega
    simp only [c1, if_false]
    by_cases c2 : f - s.probeSize ≤ 1
    · simp only [c2, if_true, St.setPmtu]
      refine ⟨by first | rfl | trivial, by first | rfl | trivial, .inl ⟨?_, ?_⟩⟩
      · simp only [Option.some.injEq]; omega
      · simp only [Option.some.injEq]; omega
    · simp only [c2, if_false]
      refine ⟨by first | rfl | trivial, by first | rfl | trivial, .inr ⟨h5, ⟨rfl, h.undecided, by simp only; omega, ht, htop, by simp only; omega, by intro f hf; simp only [Option.some.injEq] at hf; omega, by intro g hg; simp only [Option.some.injEq] at hg; omega, .inl ⟨f, s.probeSize, rfl, rfl, hle, h3, rfl, by omega, ?_⟩⟩, by first | rfl | trivial⟩⟩
      simp only [minMtu] at *; omega
  · have heq : s.probeSize = T := by omega
    simp only [h2, e]
    rcases h1 with h1 | h1
    · simp only [h1, St.setPmtu]
      exact ⟨by first | rfl | trivial, by first | rfl | trivial, .inl ⟨by simp [heq], by simp [heq]⟩⟩
    · simp only [h1]
      have c1 : ¬ (s.probeSize + 1 ≤ s.probeSize) := by omega
      have c2 : s.probeSize + 1 - s.probeSize ≤ 1 := by omega
      simp only [c1, c2, if_false, if_true, St.setPmtu]
      exact ⟨by first | rfl | trivial, by first | rfl | trivial, .inl ⟨by simp [heq], by simp [heq]⟩⟩

/-- The last failure of a probe that is too large decides a size. -/
theorem failure_step {T B D : Nat} {s : St} (h : Search T B D s) (hgt : T < s.probeSize)
    (hlast : ¬ (s.failures + 1 < s.maxProbes)) :
    let s' := ({ s with inFlight := true } : St).failedProbe s.probeSize
    s'.maxProbes = s.maxProbes ∧ s'.maxMtu = s.maxMtu ∧
      (Found T s' ∨ (1 ≤ D ∧ Search T B (D - 1) s' ∧ s'.failures = 0)) := by
  have hr := h.range
  have htop := h.top
  have hb := h.bound
  have hlow := (search_pos h).2
  have hfloor := h.floor
  have hfl := h.failures
  have ht := h.target
  unfold St.failedProbe St.updateProbeSize St.newFailed
  have e : max s.probeSize minMtu = s.probeSize := by omega
  simp only [e, hlast, if_false]
  rcases h.kind with ⟨f, g, h1, h2, h3, h4, h5, h6, h7⟩ | ⟨f, h1, h2, h3, h4, h5, h6⟩ | ⟨h1, h2, h3, h4, h5⟩
  · have hb := hb f h1
    have e2 : min f s.probeSize = s.probeSize := by omega
    simp only [h1, h2, e2]
    have c1 : ¬ (s.probeSize ≤ g) := by omega
    simp only [c1, if_false]
    by_cases c2 : s.probeSize - g ≤ 1
    · simp only [c2, if_true, St.setPmtu]
      refine ⟨by first | rfl | trivial, by first | rfl | trivial, .inl ⟨?_, ?_⟩⟩
      · simp only [Option.some.injEq]; omega
      · simp only [h2, Option.some.injEq]; omega
    · simp only [c2, if_false]
      have hD : 1 ≤ D := by
        rcases Nat.eq_zero_or_pos D with h0 | h0
        · rw [h0] at h7; simp at h7; omega
        · exact h0
      have hp := pow_pos_succ D hD
      refine ⟨by first | rfl | trivial, by first | rfl | trivial, .inr ⟨hD, ⟨rfl, h.undecided, by simp only; omega, ht, htop, by simp only; omega, by intro f hf; simp only [Option.some.injEq] at hf; omega, by intro g' hg; simp only [Option.some.injEq] at hg; rw [← hg]; exact hfloor g h2, .inl ⟨s.probeSize, g, rfl, rfl, h3, hgt, rfl, by omega, by omega⟩⟩, by first | rfl | trivial⟩⟩
  · have hb := hb f h1
    have e2 : min f s.probeSize = s.probeSize := by omega
    simp only [h1, h2, e2]
    have hD : 2 ≤ D := by
      rcases Nat.lt_or_ge D 2 with h0 | h0
      · have : D = 1 := by omega
        rw [this] at h6; simp [minMtu] at *; omega
      · exact h0
    have hp := pow_pos_succ (D - 1) (by omega)
    refine ⟨by first | rfl | trivial, by first | rfl | trivial, .inr ⟨h5, ⟨rfl, h.undecided, by simp only; omega, ht, htop, by simp only [minMtu] at *; omega, by intro f hf; simp only [Option.some.injEq] at hf; omega, (by intro g hg; cases hg), .inr (.inl ⟨s.probeSize, rfl, rfl, hgt, rfl, by omega, ?_⟩)⟩, by first | rfl | trivial⟩⟩
    have h6 : f - 1200 ≤ 2 ^ (D - 1) := h6
    have h4 : s.probeSize = (1200 + f) / 2 := h4
    have hD2 : D - 1 - 1 = D - 2 := by omega
    rw [hD2] at hp ⊢
    have hp2 : s.probeSize - 1200 ≤ 2 ^ (D - 2) := by
      rw [h4]
      generalize 2 ^ (D - 2) = X at hp
      rw [hp] at h6
      exact half_le _ f X h6
    exact hp2
  · have e2 : St.newFailed { s with inFlight := true, failures := s.failures + 1 } s.probeSize = s.probeSize := by
      unfold St.newFailed
      rcases h1 with h1 | h1 <;> simp only [h1]
      omega
    unfold St.newFailed at e2
    simp only [e2, h2]
    refine ⟨by first | rfl | trivial, by first | rfl | trivial, .inr ⟨by omega, ⟨rfl, h.undecided, by simp only; omega, ht, htop, by simp only [minMtu] at *; omega, by intro f hf; simp only [Option.some.injEq] at hf; omega, (by intro g hg; cases hg), .inr (.inl ⟨s.probeSize, rfl, rfl, hgt, rfl, by omega, ?_⟩)⟩, by first | rfl | trivial⟩⟩
    have : D - 1 - 1 = D - 2 := by omega
    rw [this]; exact h5

theorem again_step {T B D : Nat} {s : St} (h : Search T B D s) (hmore : s.failures + 1 < s.maxProbes) :
    ({ s with inFlight := true } : St).failedProbe s.probeSize = { s with inFlight := false, failures := s.failures + 1 } ∧
      Search T B D { s with inFlight := false, failures := s.failures + 1 } := by
  constructor
  · unfold St.failedProbe
    simp only [hmore, if_true]
  · exact ⟨rfl, h.undecided, hmore, h.target, h.top, h.range, h.bound, h.floor, h.kind⟩

theorem converge_aux {T B t m : Nat} : ∀ (l : List (Nat → Bool)) (D : Nat) (s : St) (pre : List (Nat → Bool)),
    Search T B D s → s.maxProbes = m → (∀ n, n ≤ B → (n ≤ t ↔ n ≤ T)) → (∀ net ∈ l, Limit t net) →
    Fair t m (pre ++ l) → pre.length = s.failures → (s.probeSize ≤ T → ∀ net ∈ pre, ¬ Delivers t net) →
    m * D - s.failures ≤ l.length → Found T (s.rounds l) := by
  intro l
  induction l with
  | nil =>
    intro D s pre h hm _ _ _ _ _ hlen
    have hD := (search_pos h).1
    have hf := h.failures
    have : m * 1 ≤ m * D := Nat.mul_le_mul_left m hD
    simp only [List.length_nil] at hlen
    omega
  | cons net l ih =>
    intro D s pre h hm hT hlim hfair hpre hbad hlen
    obtain ⟨hD, hmin⟩ := search_pos h
    have hf := h.failures
    have hmul : m * D = m * (D - 1) + m := by
      obtain ⟨k, rfl⟩ : ∃ k, D = k + 1 := ⟨D - 1, by omega⟩
      rw [Nat.add_sub_cancel, Nat.mul_succ]
    have hround : s.round net = ({ s with inFlight := true } : St).report s.probeSize (net s.probeSize) := by
      unfold St.round; rw [search_sends h]
    show Found T ((s.round net).rounds l)
    rw [hround]
    simp only [List.length_cons] at hlen
    have hlim' : ∀ net ∈ l, Limit t net := fun n hn => hlim n (by simp [hn])
    have next : ∀ s' : St, s'.maxProbes = s.maxProbes → s'.maxMtu = s.maxMtu →
        (Found T s' ∨ (1 ≤ D ∧ Search T B (D - 1) s' ∧ s'.failures = 0)) → Found T (s'.rounds l) := by
      intro s' e1 e2 hs
      rcases hs with hs | ⟨_, hs, h0⟩
      · rw [found_rounds l s' hs]; exact hs
      · refine ih (D - 1) s' [] hs (e1.trans hm) hT hlim' ?_ (by rw [h0]; rfl) (by simp) (by omega)
        have : pre ++ net :: l = (pre ++ [net]) ++ l := by simp
        rw [this] at hfair
        exact hfair.suffix
    cases hn : net s.probeSize with
    | true =>
      have hle : s.probeSize ≤ T := (hT _ h.range).mp (hlim net (by simp) _ hn)
      obtain ⟨e1, e2, hs⟩ := success_step h hle
      exact next _ e1 e2 hs
    | false =>
      have hnd : s.probeSize ≤ T → ¬ Delivers t net := by
        intro hle hd
        have := hd s.probeSize hmin ((hT _ h.range).mpr hle)
        rw [hn] at this; cases this
      have hbad' : s.probeSize ≤ T → ∀ n ∈ pre ++ [net], ¬ Delivers t n := by
        intro hle n hmem
        rcases List.mem_append.mp hmem with hmem | hmem
        · exact hbad hle n hmem
        · simp only [List.mem_singleton] at hmem; rw [hmem]; exact hnd hle
      by_cases c : s.failures + 1 < s.maxProbes
      · obtain ⟨e, hs⟩ := again_step h c
        show Found T ((({ s with inFlight := true } : St).failedProbe s.probeSize).rounds l)
        rw [e]
        refine ih D _ (pre ++ [net]) hs hm hT hlim' (by simpa using hfair) (by simp [hpre]) hbad' (by simp only; omega)
      · have hgt : T < s.probeSize := by
          apply Nat.lt_of_not_le
          intro hle
          obtain ⟨x, hx, hd⟩ := hfair [] (pre ++ [net]) l (by simp) (by simp [hpre]; omega)
          exact hbad' hle x hx hd
        obtain ⟨e1, e2, hs⟩ := failure_step h hgt c
        exact next _ e1 e2 hs

/-- Against a network that delivers nothing beyond `t`, and a probe up to `t` at least once
in as many rounds as probes are made, discovery settles on `t`; after at most the number of
probes times (k + 2) rounds, if 2^k is not less than the range of sizes searched. -/
theorem finds (mx probes t k : Nat) (h1 : 1200 ≤ t) (h2 : t ≤ mx) (hk : mx - 1200 ≤ 2 ^ k) (l : List (Nat → Bool))
    (hlim : ∀ net ∈ l, Limit t net) (hfair : Fair t (if probes = 0 then 3 else probes) l)
    (hlen : (if probes = 0 then 3 else probes) * (k + 2) ≤ l.length) :
    ((new mx probes).rounds l).pmtu = some t ∧ ((new mx probes).rounds l).currentMtu = t := by
  have hpos : 0 < (if probes = 0 then 3 else probes) := by split <;> omega
  have hs : Search t mx (k + 2) (new mx probes) :=
    ⟨rfl, rfl, hpos, h1, Nat.le_refl _, Nat.le_refl _, (by intro f hf; cases hf), (by intro g hg; cases hg), .inr (.inr ⟨.inl rfl, rfl, h2, by omega, hk⟩)⟩
  have := converge_aux (t := t) l (k + 2) (new mx probes) [] hs rfl (fun n _ => Iff.rfl) hlim hfair rfl (by simp)
    (by have e : (new mx probes).failures = 0 := rfl
        have e2 : (new mx probes).maxProbes = if probes = 0 then 3 else probes := rfl
        rw [e, e2]; omega)
  refine ⟨this.pmtu, ?_⟩
  unfold St.currentMtu
  rw [this.current]; rfl

/-- After revalidation the same holds with the size found before as the maximum: if the
network now delivers up to `t`, discovery settles on the smaller of both. (It does not
look for sizes beyond the one found before.) -/
theorem revalidates (mx probes t k p : Nat) (hmax : 1200 ≤ mx) (ops : List Ev)
    (hp : (Sim.run { s := new mx probes } ops).s.pmtu = some p)
    (h1 : 1200 ≤ t) (hk : p - 1200 ≤ 2 ^ k) (l : List (Nat → Bool)) (hlim : ∀ net ∈ l, Limit t net)
    (hfair : Fair t (if probes = 0 then 3 else probes) l) (hlen : (if probes = 0 then 3 else probes) * (k + 2) ≤ l.length) :
    let s := (Sim.run { s := new mx probes } ops).s.revalidate.rounds l
    s.pmtu = some (min t p) ∧ s.currentMtu = min t p := by
  have hi := inv_run ops { s := new mx probes } (inv_new hmax probes)
  generalize hx : Sim.run { s := new mx probes } ops = x at hp hi
  obtain ⟨d1, d2, d3, d4⟩ := hi.done p hp
  obtain ⟨s1, s2, _⟩ := hi.success p d1
  have hpr := hi.probes
  have hpos : 0 < (if probes = 0 then maxProbesDefault else probes) := by have := hi.failures; omega
  have hrest : x.s.inFlight = false := by rw [← hi.flight, d3]; rfl
  have hrv : x.s.revalidate = { x.s with probeSize := p, pmtu := none, failures := 0, success := none } := by
    unfold St.revalidate
    rw [hp]
    have hmin : min p x.s.maxMtu = p := by rw [hi.maxMtu]; omega
    simp only [St.setProbeSize, hmin]
  have hs : Search (min t p) p (k + 2) x.s.revalidate := by
    rw [hrv]
    refine ⟨hrest, rfl, by rw [hpr]; exact hpos, by simp only [minMtu] at *; omega, by simp only; rw [hi.maxMtu]; exact s2, Nat.le_refl _, ?_, (by intro g hg; cases hg), .inr (.inr ⟨?_, rfl, by simp only; omega, by omega, hk⟩)⟩
    · intro f hf
      have := d4 f hf
      omega
    · cases hf : x.s.failed with
      | none => left; rfl
      | some f => right; rw [d4 f hf]
  have hm : x.s.revalidate.maxProbes = if probes = 0 then 3 else probes := by rw [hrv]; exact hpr
  have hzero : x.s.revalidate.failures = 0 := by rw [hrv]
  have := converge_aux (t := t) l (k + 2) x.s.revalidate [] hs hm (fun n hn => by omega) hlim hfair (by rw [hzero]; rfl) (by simp)
    (by rw [hzero]; omega)
  refine ⟨this.pmtu, ?_⟩
  unfold St.currentMtu
  rw [this.current]; rfl

/-! The true size is 1237; probes go up to 1500, each size is tried once. -/

def upTo (t : Nat) (n : Nat) : Bool := decide (n ≤ t)
example : ((new 1500 1).rounds (List.replicate 11 (upTo 1237))).pmtu = some 1237 := by decide
example : ((new 1500 1).rounds (List.replicate 5 (upTo 1237))).pmtu = none := by decide
example : Fair 1237 1 (List.replicate 11 (upTo 1237)) := by
  intro a w b h hw
  match w, hw with
  | [x], _ =>
    have : x ∈ List.replicate 11 (upTo 1237) := by rw [h]; simp
    rw [List.eq_of_mem_replicate this]
    exact ⟨upTo 1237, by simp, by intro n _ h; simp [upTo, h]⟩

/-! After revalidation on a path that has shrunk. -/
example : (((new 1500 1).rounds (List.replicate 11 (upTo 1400))).revalidate.rounds
    (List.replicate 11 (upTo 1300))).pmtu = some 1300 := by decide +kernel
/-! On a path that has grown the old result stays. -/
example : (((new 1500 1).rounds (List.replicate 11 (upTo 1300))).revalidate.rounds
    (List.replicate 11 (upTo 1400))).pmtu = some 1300 := by decide +kernel
/-! With a path that is too small for 1200 bytes discovery gives up. -/
example : ((new 1500 1).rounds (List.replicate 20 (upTo 1100))).currentMtu = 1200 := by decide

end Verif.C43
