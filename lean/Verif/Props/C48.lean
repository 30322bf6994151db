import Verif.Props.C46

/-!
C48. The loss detection timer uses the earliest pending loss time.

The claim is false. The code compares optional times with `new_time < time`
(recovery.rs:447), where "none" is smaller than every time. A space without a pending
loss time therefore removes the time found in the spaces before it: `exact` says what is
computed. In a reachable state, after a Handshake packet was acknowledged past a gap, the
timer is set to the much later probe timeout although a loss time is pending
(`earliest_false`), and when it fires a probe is made instead of the loss being declared
(`no_loss_declared`).

The claim holds when every space after a pending one is pending too, so in particular when
only the application space is (`earliest_partial`), as is the case once the handshake is
confirmed.
-/

namespace Verif.Props.C48

open Verif.Rec
open Verif.Props.C46 (trivialEnv s0 data)

variable {σ : Type}

/-- The pending loss times. -/
def pending (s : State σ) : List Nat := s.initial.lossTime.toList ++ s.handshake.lossTime.toList ++ s.application.lossTime.toList

/-- What is specified: the least pending time. -/
def Earliest (s : State σ) (t : Nat) : Prop := t ∈ pending s ∧ ∀ u ∈ pending s, t ≤ u

/-- What is computed from the loss times of the three spaces. -/
def found : Option Nat → Option Nat → Option Nat → Option Nat
  | _, _, none => none
  | _, none, some a => some a
  | none, some h, some a => some (if h ≤ a then h else a)
  | some i, some h, some a => some (if (if i ≤ h then i else h) ≤ a then (if i ≤ h then i else h) else a)

/-- The time found is `found` of the loss times: nothing when the application space has
none, and only its own when the Handshake space has none. -/
theorem exact (s : State σ) : s.lossTimeAndSpace.1 = found s.initial.lossTime s.handshake.lossTime s.application.lossTime := by
  unfold State.lossTimeAndSpace lossStep
  simp only [State.get]
  obtain ⟨i, hi⟩ : ∃ i, s.initial.lossTime = i := ⟨_, rfl⟩
  obtain ⟨h, hh⟩ : ∃ h, s.handshake.lossTime = h := ⟨_, rfl⟩
  obtain ⟨a, ha⟩ : ∃ a, s.application.lossTime = a := ⟨_, rfl⟩
  simp only [hi, hh, ha]
  cases i <;> cases h <;> cases a <;> simp [optLt, found] <;> (repeat' split) <;> simp_all <;> omega

/-- When every space after a pending one is pending, the least time is found. -/
theorem found_least (i h a : Option Nat) (h1 : i.isSome = true → h.isSome = true) (h2 : h.isSome = true → a.isSome = true)
    (hp : i.toList ++ h.toList ++ a.toList ≠ []) :
    ∃ t, found i h a = some t ∧ t ∈ i.toList ++ h.toList ++ a.toList ∧ ∀ u ∈ i.toList ++ h.toList ++ a.toList, t ≤ u := by
  cases i <;> cases h <;> cases a <;> simp [found] at h1 h2 hp ⊢ <;> (repeat' split) <;> omega

/-- Whenever the timer is computed and a loss time is pending in such a way that every
later space is pending too, it is the earliest one. Missing: a pending space followed by
one that is not. -/
theorem earliest_partial (s : State σ) (st : Status) (now : Nat)
    (h1 : s.initial.lossTime.isSome = true → s.handshake.lossTime.isSome = true)
    (h2 : s.handshake.lossTime.isSome = true → s.application.lossTime.isSome = true) (hp : pending s ≠ []) :
    ∃ t, (s.setTimer st now).timer = some t ∧ Earliest s t := by
  obtain ⟨t, e, hm, hl⟩ := found_least _ _ _ h1 h2 hp
  refine ⟨t, ?_, hm, hl⟩
  unfold State.setTimer State.timerFor
  dsimp only
  rw [exact, e]
  rfl

/-- Nothing pending: nothing found. -/
theorem none_pending (s : State σ) (h : pending s = []) : s.lossTimeAndSpace.1 = none := by
  have hx := exact s
  unfold pending at h
  cases hi : s.initial.lossTime <;> cases hh : s.handshake.lossTime <;> cases ha : s.application.lossTime <;>
    rw [hi, hh, ha] at hx <;> simp_all [found]

/-! ### Witness -/

/-- During the handshake. -/
def during : Status := ⟨true, false, false⟩

/-- The thresholds of the code. -/
def en98 : Env Unit := { trivialEnv with scale := fun b d => if b = true then d * 5 / 4 else d * 9 / 8 }

/-- Two Handshake packets, sent 1 ms apart; 20 ms later the second is acknowledged. -/
def gap : List Op :=
  [.send .handshake (data 1) during 1000000000, .send .handshake (data 2) during 1001000000,
   .ack .handshake [(2, 3)] 0 during 1021000000 none]

/-- The first packet is pending loss at 1022.5 ms, but the timer is set to 1061 ms. -/
theorem earliest_false : ∃ (ops : List Op), WellSent ops ∧ pending (run en98 s0 ops).1 ≠ [] ∧
    (∃ t, (run en98 s0 ops).1.timer = some t ∧ ∀ u ∈ pending (run en98 s0 ops).1, u + 30000000 < t) := by
  refine ⟨gap, ⟨?_, ?_⟩, by decide +kernel, ⟨1061000000, by decide +kernel, by decide +kernel⟩⟩
  · intro e; cases e <;> simp [sends, gap]; decide
  · intro e p hp; cases e <;> simp [sends, gap] at hp; rcases hp with rfl | rfl <;> decide

/-- When the loss time has passed, a timeout makes a probe and declares nothing lost. -/
theorem no_loss_declared :
    let x := step en98 (run en98 s0 gap).1 (.timeout during 1061000000)
    x.2.lost = [] ∧ x.1.ptoCount = 1 ∧ x.1.handshake.lossProbes = 1 ∧ pending (run en98 s0 gap).1 = [1022500000] := by decide +kernel

/-- With only the application space pending the timer is right. -/
example :
    let ops := [Op.send .application (data 1) ⟨true, true, true⟩ 1000000000, .send .application (data 2) ⟨true, true, true⟩ 1001000000,
      .ack .application [(2, 3)] 0 ⟨true, true, true⟩ 1021000000 none]
    ((run en98 s0 ops).1.timer, pending (run en98 s0 ops).1, (step en98 (run en98 s0 ops).1 (.timeout ⟨true, true, true⟩ 1022500000)).2.lost.map
      Sent.pn) = (some 1022500000, [1022500000], [1]) := by decide +kernel

end Verif.Props.C48
