import Verif.Stream.FlowControl

/-! # C20 — receive windows are never retracted and stay within configured maxima -/

namespace Verif.C20
open Verif Stream

/-- What happens to a receive flow controller. -/
inductive Op where
  /-- the application consumed `n` bytes (never more than were received within the limit) -/
  | consume (n : Nat)
  /-- a packet is being built at time `now`; `fits` tells whether MAX_DATA fits in it -/
  | send (now rtt : Nat) (fits : Bool)
  /-- a packet with MAX_DATA is declared lost -/
  | lost
  /-- a stream window `w` was advertised: the connection window has to keep up -/
  | lower (w : Nat)
  deriving DecidableEq, Repr

structure St where
  f : FlowControl
  shouldSend : Bool := false
  deriving DecidableEq, Repr

/-- The connection's use of its flow controller (lib.rs:4859-4882; MAX_DATA lost,
lib.rs:4258-4260; `ensure_window_lower_bound`, lib.rs:4850-4854). Second component:
the limit advertised, if any. Consumption beyond the limit is impossible (C22, C23), so
such a step is not a step (`none`); neither is losing a frame never sent. -/
def step (s : St) : Op → Option (St × Option Nat)
  | .consume n =>
    if s.f.consumed + n ≤ s.f.maxData then some ({ s with f := s.f.addConsumed n }, none) else none
  | .send now rtt fits =>
    match s.f.shouldUpdateMaxData with
    | none => none
    | some su =>
      let s := if su && s.f.maxData < s.f.maxDataNext then
          { s with f := s.f.autotuneWindow now rtt, shouldSend := true } else s
      if s.shouldSend && fits then
        some ({ s with f := s.f.updateMaxData now, shouldSend := false }, some s.f.maxDataNext)
      else some (s, none)
  | .lost => if s.f.lastUpdate.isSome then some ({ s with shouldSend := true }, none) else none
  | .lower w => some ({ s with f := s.f.ensureWindowLowerBound w }, none)

/-- States reached by a sequence of steps. -/
inductive Reach (m w mw : Nat) : St → Prop where
  | init : Reach m w mw { f := FlowControl.new m w mw }
  | step {s op s' o} : Reach m w mw s → step s op = some (s', o) → Reach m w mw s'

structure Inv (mw : Nat) (s : St) : Prop where
  max : s.f.maxWindow = mw
  win : s.f.window ≤ mw
  cons : s.f.consumed ≤ s.f.maxData
  send : s.shouldSend = true → s.f.maxData ≤ s.f.maxDataNext
  last : s.f.lastUpdate.isSome → s.f.maxData ≤ s.f.maxDataNext

theorem autotune_cases (f : FlowControl) (now rtt : Nat) (h : f.window ≤ f.maxWindow) :
    ∃ w, f.autotuneWindow now rtt = { f with window := w } ∧ f.window ≤ w ∧ w ≤ f.maxWindow := by
  simp only [FlowControl.autotuneWindow]
  split
  · split
    · exact ⟨_, rfl, by omega, by omega⟩
    · exact ⟨f.window, rfl, Nat.le_refl _, h⟩
  · exact ⟨f.window, rfl, Nat.le_refl _, h⟩

/-- One step: the invariant is kept, limit and window do not shrink, consumption is not
forgotten, and an advertised limit is the one in force and a full window beyond what
was consumed. -/
theorem step_spec {mw : Nat} {s s' : St} {op : Op} {o : Option Nat} (hI : Inv mw s)
    (h : step s op = some (s', o)) :
    Inv mw s' ∧ s.f.maxData ≤ s'.f.maxData ∧ s.f.window ≤ s'.f.window ∧ s.f.consumed ≤ s'.f.consumed ∧
      (∀ n, o = some n → n = s'.f.maxData ∧ n = s'.f.consumed + s'.f.window) ∧
      (o = none → s'.f.maxData = s.f.maxData) := by
  obtain ⟨h1, h2, h3, h4, h5⟩ := hI
  cases op with
  | consume n =>
    simp only [step] at h
    split at h
    · simp only [Option.some.injEq, Prod.mk.injEq] at h
      obtain ⟨rfl, rfl⟩ := h
      simp only [FlowControl.addConsumed, FlowControl.maxDataNext] at *
      refine ⟨⟨h1, h2, by assumption, fun h => by have := h4 h; simp only [FlowControl.maxDataNext]; omega,
        fun h => by have := h5 h; simp only [FlowControl.maxDataNext]; omega⟩, ?_⟩
      simp
    · simp at h
  | send now rtt fits =>
    have hsu : s.f.shouldUpdateMaxData = some (decide (s.f.maxData - s.f.consumed < s.f.window / 2)) := by
      simp only [FlowControl.shouldUpdateMaxData]; rw [if_neg (by omega)]
    simp only [step, hsu] at h
    -- after the optional auto-tuning
    obtain ⟨w, hw, hw1, hw2⟩ := autotune_cases s.f now rtt (by omega)
    have hmid : ∃ t : St, (if (decide (s.f.maxData - s.f.consumed < s.f.window / 2) &&
          decide (s.f.maxData < s.f.maxDataNext)) = true then
          { s with f := s.f.autotuneWindow now rtt, shouldSend := true } else s) = t ∧
        Inv mw t ∧ t.f.maxData = s.f.maxData ∧ s.f.window ≤ t.f.window ∧ t.f.consumed = s.f.consumed := by
      refine ⟨_, rfl, ?_⟩
      split
      · rename_i hc
        simp only [Bool.and_eq_true, decide_eq_true_eq, FlowControl.maxDataNext] at hc
        rw [hw]
        exact ⟨⟨h1, by simp only; omega, h3, fun _ => by simp only [FlowControl.maxDataNext]; omega,
          fun _ => by simp only [FlowControl.maxDataNext]; omega⟩, rfl, hw1, rfl⟩
      · exact ⟨⟨h1, h2, h3, h4, h5⟩, rfl, Nat.le_refl _, rfl⟩
    obtain ⟨t, ht, hI', e1, e2, e3⟩ := hmid
    rw [ht] at h
    obtain ⟨g1, g2, g3, g4, g5⟩ := hI'
    split at h
    · rename_i hc
      simp only [Option.some.injEq, Prod.mk.injEq] at h
      obtain ⟨rfl, rfl⟩ := h
      simp only [Bool.and_eq_true] at hc
      have := g4 hc.1
      simp only [FlowControl.updateMaxData, FlowControl.maxDataNext] at *
      refine ⟨⟨g1, g2, by simp only; omega, by simp, fun _ => by simp [FlowControl.maxDataNext]⟩, by omega, e2, by omega, ?_, by simp⟩
      intro n hn
      simp only [Option.some.injEq] at hn
      exact ⟨hn.symm, hn.symm⟩
    · simp only [Option.some.injEq, Prod.mk.injEq] at h
      obtain ⟨rfl, rfl⟩ := h
      exact ⟨⟨g1, g2, g3, g4, g5⟩, by omega, e2, by omega, by simp, fun _ => e1⟩
  | lost =>
    simp only [step] at h
    split at h
    · rename_i hl
      simp only [Option.some.injEq, Prod.mk.injEq] at h
      obtain ⟨rfl, rfl⟩ := h
      exact ⟨⟨h1, h2, h3, fun _ => h5 hl, h5⟩, by simp⟩
    · simp at h
  | lower w =>
    simp only [step, Option.some.injEq, Prod.mk.injEq] at h
    obtain ⟨rfl, rfl⟩ := h
    simp only [FlowControl.ensureWindowLowerBound, FlowControl.setWindow, FlowControl.maxDataNext] at *
    split
    · refine ⟨⟨h1, by simp only; omega, h3, fun h => by have := h4 h; simp only [FlowControl.maxDataNext]; omega,
        fun h => by have := h5 h; simp only [FlowControl.maxDataNext]; omega⟩, ?_⟩
      simp only [Nat.le_refl, true_and]
      refine ⟨by omega, by simp, by simp⟩
    · exact ⟨⟨h1, h2, h3, h4, h5⟩, by simp⟩

theorem reach_inv {m w mw : Nat} {s : St} (h : Reach m w mw s) : Inv mw s := by
  induction h with
  | init => constructor <;> simp [FlowControl.new]; omega
  | step _ hs ih => exact (step_spec ih hs).1

/-- **C20.** For every configuration and every sequence of steps: the limit in force
never decreases, the window never shrinks nor exceeds the configured maximum, and an
update advertises exactly a full window beyond the bytes consumed, which becomes the
limit in force. Without an update the limit does not change. -/
theorem window_discipline (m w mw : Nat) (s s' : St) (op : Op) (o : Option Nat) (hr : Reach m w mw s)
    (h : step s op = some (s', o)) :
    s.f.maxData ≤ s'.f.maxData ∧ s.f.window ≤ s'.f.window ∧ s'.f.window ≤ mw ∧
    (∀ n, o = some n → n = s'.f.maxData ∧ n = s'.f.consumed + s'.f.window) ∧
    (o = none → s'.f.maxData = s.f.maxData) := by
  obtain ⟨h1, h2, h3, h4, h5, h6⟩ := step_spec (reach_inv hr) h
  exact ⟨h2, h3, h1.win, h5, h6⟩

/-- A flow controller that ran low always sends an update as soon as a packet has
room, unless that could not raise the limit. -/
theorem low_credit_is_renewed (m w mw now rtt : Nat) (s : St) (hr : Reach m w mw s)
    (hlow : s.f.maxData - s.f.consumed < s.f.window / 2) :
    ∃ s' n, step s (.send now rtt true) = some (s', some n) ∧ s.f.maxData < n ∧
      s'.f.consumed + s'.f.window = n ∧ s'.f.consumed = s.f.consumed := by
  obtain ⟨h1, h2, h3, h4, h5⟩ := reach_inv hr
  have hsu : s.f.shouldUpdateMaxData = some (decide (s.f.maxData - s.f.consumed < s.f.window / 2)) := by
    simp only [FlowControl.shouldUpdateMaxData]; rw [if_neg (by omega)]
  obtain ⟨w', hw, hw1, hw2⟩ := autotune_cases s.f now rtt (by omega)
  have hlt : s.f.maxData < s.f.maxDataNext := by simp only [FlowControl.maxDataNext]; omega
  simp only [step, hsu, hlow, hlt, hw, decide_true, Bool.and_true, if_true]
  refine ⟨_, _, rfl, ?_, ?_, rfl⟩
  · simp only [FlowControl.maxDataNext]; omega
  · simp [FlowControl.updateMaxData, FlowControl.maxDataNext]

/-- `should_update_max_data` never underflows. -/
theorem no_underflow (m w mw : Nat) (s : St) (hr : Reach m w mw s) : s.f.shouldUpdateMaxData ≠ none := by
  have := (reach_inv hr).cons
  simp only [FlowControl.shouldUpdateMaxData]
  rw [if_neg (by omega)]; simp

/-- Consumption, an update, quick further consumption doubling the window, up to the
maximum. -/
example : ((step ⟨FlowControl.new 10 10 15, false⟩ (.consume 6)).bind fun (s, _) =>
    (step s (.send 100 50 true)).bind fun (s, o1) =>
    (step s (.consume 8)).bind fun (s, _) =>
    (step s (.send 120 50 true)).map fun (s, o2) => (o1, o2, s.f.window))
    = some (some 16, some 29, 15) := by decide

end Verif.C20
