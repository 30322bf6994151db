import Verif.Octets.Model

/-!
Model of the detection of jumps of the round-trip time with BBR
(`/repo/quiche/src/recovery/gcongestion/bbr2/rtt_jump_detector/`): the detector that compares
with the least delay (`global_min.rs`) and the one with a hidden Markov model (`hmm.rs`). Times
are nanoseconds. What the code computes in single precision is a parameter: the threshold
`baseline.mul_f32(3.0)`, and the most likely state of the Markov model, which comes with each
sample.
-/

namespace Verif.Jump

/-- `GlobalMinEpisode` (global_min.rs:59-73). -/
inductive Episode
  | idle
  | active (samples start : Nat)
  | persistent
  deriving DecidableEq, Repr

/-- `GLOBAL_MIN_CONFIRM_SAMPLES` (global_min.rs:79). -/
abbrev confirmSamples : Nat := 3

/-- `GLOBAL_MIN_CONFIRM_DURATION_MULTIPLIER` (global_min.rs:83). -/
abbrev confirmTimes : Nat := 3

/-- `GlobalMinDetector` (global_min.rs:86-92). -/
structure GlobalMin where
  baseline : Option Nat := none
  episode : Episode := .idle
  deriving DecidableEq, Repr

/-- `update_baseline` (global_min.rs:163-166). -/
def GlobalMin.updateBaseline (g : GlobalMin) (rtt : Nat) : GlobalMin :=
  { g with baseline := some (match g.baseline with | none => rtt | some m => min m rtt) }

/-- The new episode and what is reported (global_min.rs:112-160). -/
def Episode.next (e : Episode) (jump : Bool) (baseline now : Nat) : Episode × Option Nat :=
  match e with
  | .idle => if jump then (.active 1 now, none) else (.idle, none)
  | .active n start =>
    if jump = false then (.idle, none)
    else if n + 1 ≥ confirmSamples ∧ now - start ≥ baseline * confirmTimes then (.persistent, some start)
    else (.active (n + 1) start, none)
  | .persistent => if jump = false then (.idle, none) else (.persistent, none)

/-- `on_rtt_sample` (global_min.rs:98-161); `thr` is the threshold for a baseline. -/
def GlobalMin.sample (thr : Nat → Nat) (g : GlobalMin) (rtt now : Nat) (full : Bool) : GlobalMin × Option Nat :=
  if full = false then (g.updateBaseline rtt, none)
  else
    match g.baseline with
    | none => (g.updateBaseline rtt, none)
    | some m =>
      let (e, r) := g.episode.next (decide (rtt > thr m)) m now
      ({ g with episode := e }.updateBaseline rtt, r)

/-- `HmmState` and `HmmEpisode` (hmm.rs:45-97), which correspond one to one. -/
inductive Hmm
  | normal | transient | persistent
  deriving DecidableEq, Repr

/-- `as_index` (hmm.rs:53-59). -/
def Hmm.index : Hmm → Nat
  | .normal => 0
  | .transient => 1
  | .persistent => 2

/-- `HMM_WARMUP_SAMPLES` (hmm.rs:103). -/
abbrev warmup : Nat := 8

/-- `HMM_MIN_DWELL` (hmm.rs:106). -/
abbrev minDwell : Nat := 80000000

/-- `HMM_PERSIST_CONFIRM_SAMPLES` (hmm.rs:121). -/
abbrev persistSamples : Nat := 3

/-- `dwell_for_transition` (hmm.rs:217-231). -/
def dwell (current pending : Hmm) (rtt : Nat) : Nat :=
  let rtts := if pending.index > current.index then (match pending with | .persistent => 5 | _ => 1) else 1
  max minDwell (rtt * rtts)

/-- The parts of `HmmDetector` (hmm.rs:234-256) that decide. -/
structure HmmDet where
  episode : Hmm := .normal
  seen : Nat := 0
  pending : Hmm := .normal
  start : Option Nat := none
  samples : Nat := 0
  counted : Bool := false
  deriving DecidableEq, Repr

/-- `reset_pending` (hmm.rs:358-362). -/
def HmmDet.reset (d : HmmDet) (s : Hmm) : HmmDet := { d with pending := s, start := none, samples := 0 }

/-- The count of samples that agree (hmm.rs:315-321). -/
def HmmDet.pend (d : HmmDet) (raw : Hmm) (now : Nat) : HmmDet :=
  if raw ≠ d.pending ∨ d.start = none then { d with pending := raw, start := some now, samples := 1 }
  else { d with samples := d.samples + 1 }

/-- A new committed state (hmm.rs:331-350). -/
def HmmDet.commit (d : HmmDet) (raw : Hmm) (start : Nat) : HmmDet × Option Nat :=
  match raw with
  | .persistent => ({ d with counted := true, episode := raw }.reset raw, if d.counted then none else some start)
  | .transient => ({ d with episode := raw }.reset raw, none)
  | .normal => ({ d with counted := false, episode := raw }.reset raw, none)

/-- The state that is committed to after the dwell time (hmm.rs:323-352). -/
def HmmDet.settle (d : HmmDet) (raw : Hmm) (rtt now : Nat) : HmmDet × Option Nat :=
  let start := d.start.getD now
  if (raw ≠ .persistent ∨ d.samples ≥ persistSamples) ∧ now - start ≥ dwell d.episode raw rtt then d.commit raw start
  else (d, none)

/-- `on_rtt_sample` (hmm.rs:277-356), where `raw` is the most likely state. -/
def HmmDet.sample (d : HmmDet) (rtt now : Nat) (full : Bool) (raw : Hmm) : HmmDet × Option Nat :=
  let d := { d with seen := d.seen + 1 }
  if d.seen ≤ warmup then (d, none)
  else if full = false then (d.reset .normal, none)
  else if raw = d.episode then (d.reset d.episode, none)
  else (d.pend raw now).settle raw rtt now

end Verif.Jump
