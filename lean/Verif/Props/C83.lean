import Verif.Path.Step

/-!
C83: each failure of the validation of a path is reported. It does not hold for the second
failure of a path, which moreover comes after a single lost probe.
-/

namespace Verif.Props.C83
open Verif Verif.Path

/-- An operation after which a path has failed that had not before. -/
def Fails (c : Conn) (op : Op) (i : Nat) (q : Path) : Prop :=
  (c.step op).paths.get i = some q ∧ q.state = .failed ∧ ∃ p, c.paths.get i = some p ∧ p.uid = q.uid ∧ p.state ≠ .failed

/-- It adds an event for the application that says so. -/
def Reports (c : Conn) (op : Op) (q : Path) : Prop :=
  ∃ l, (c.step op).paths.events = c.paths.events ++ l ∧ Event.failedValidation q.laddr q.paddr ∈ l

abbrev c0 : Conn := Conn.start false false (1, 2) 3 3 3 false [1] [2] none none

/-- A probe that is lost. -/
def lostProbe (t d : Nat) : List Op := [.send none none 1200 t [⟨false, true, 1200, 0, some d⟩], .timeout (t + 50) [(1, 10)]]

/-- A client probes a second path. -/
def first : List Op :=
  [.setLimit 3, .newScid [3] 7 false, .establish, .recv (1, 2) 100 [.short [1] [.newCid [4] 1 8 0] false], .probe (5, 2)] ++
  lostProbe 100 70 ++ lostProbe 200 71 ++ lostProbe 300 72

/-- It tries again. -/
def second : List Op := first ++ [.probe (5, 2)] ++ lostProbe 400 73

def view (ops : List Op) := ((c0.run ops).paths.slots.map (·.map fun p => (p.state, p.probingLost)), (c0.run ops).paths.events)

example : view (first.take 7) = ([some (.validated, 0), some (.validating, 1)], []) ∧
    view (first.take 9) = ([some (.validated, 0), some (.validating, 2)], []) ∧
    view first = ([some (.validated, 0), some (.failed, 3)], [.failedValidation 5 2]) ∧
    view (second.take 13) = ([some (.validated, 0), some (.validating, 3)], [.failedValidation 5 2]) ∧
    view second = ([some (.validated, 0), some (.failed, 4)], [.failedValidation 5 2]) := ⟨rfl, rfl, rfl, rfl, rfl⟩

/-- The second failure is not reported. -/
theorem reports_false : ¬ ∀ (ops : List Op) (op : Op) (i : Nat) (q : Path), Fails (c0.run ops) op i q → Reports (c0.run ops) op q := by
  intro h
  have := h (second.take 13) (.timeout 450 [(1, 10)]) 1 _ ⟨rfl, rfl, _, rfl, rfl, by decide⟩
  obtain ⟨l, hl, hm⟩ := this
  have : l = [] := by
    have : (([.failedValidation 5 2] : List Event)) = [.failedValidation 5 2] ++ l := hl
    simpa using this
  rw [this] at hm
  cases hm

/-- The reports of one expiry of timers: the paths failed whose failure was never reported
before, each once. -/
theorem reported_partial (m : PathMap) (e : Event) : e ∈ m.notifyFailed.events ↔ e ∈ m.events ∨
    ∃ i p, m.get i = some p ∧ p.state = .failed ∧ p.notified = false ∧ e = .failedValidation p.laddr p.paddr := by
  unfold PathMap.notifyFailed
  simp only [List.mem_append, List.mem_filterMap, List.mem_filter]
  constructor
  · rintro (h | ⟨s, ⟨hs, hf⟩, he⟩)
    · exact Or.inl h
    · cases s with
      | none => cases he
      | some p =>
        obtain ⟨i, hi, hget⟩ := List.getElem_of_mem hs
        have hf : p.state = .failed ∧ p.notified = false := by simpa [PathMap.failing] using hf
        refine Or.inr ⟨i, p, ?_, hf.1, hf.2, (Option.some.inj he).symm⟩
        unfold PathMap.get
        rw [List.getElem?_eq_getElem hi, hget]
        rfl
  · rintro (h | ⟨i, p, hp, h1, h2, he⟩)
    · exact Or.inl h
    · refine Or.inr ⟨some p, ⟨?_, by simp [PathMap.failing, h1, h2]⟩, by rw [he]; rfl⟩
      unfold PathMap.get at hp
      cases hs : m.slots[i]? with
      | none => rw [hs] at hp; cases hp
      | some s =>
        rw [hs] at hp
        have : s = some p := hp
        rw [← this]
        exact List.mem_of_getElem? hs

/-- A path that was never reported failed fails with a report. -/
theorem first_reported (m : PathMap) (i : Nat) (p : Path) (h : m.get i = some p) (h1 : p.state = .failed) (h2 : p.notified = false) :
    .failedValidation p.laddr p.paddr ∈ m.notifyFailed.events := (reported_partial m _).mpr (Or.inr ⟨i, p, h, h1, h2, rfl⟩)

/-- When a path that has failed after three lost probes is probed again, the first lost
probe makes it fail again. -/
theorem no_retry (p : Path) (ch : Chal) (now rtt : Nat) (server : Bool) (h : 3 ≤ p.probingLost) (hc : ch ∈ p.inFlight) (ht : ch.time ≤ now) :
    (p.onTimeout now rtt server).state = .failed := by
  unfold Path.onTimeout
  dsimp only
  cases hf : p.inFlight.find? fun c => decide (c.time ≤ now) with
  | none => exact absurd ht (by simpa using List.find?_eq_none.mp hf ch hc)
  | some c =>
    dsimp only
    have hge : ∀ q : Path, 3 ≤ q.probingLost → 3 ≤ (q.countLost c.time rtt).probingLost := by
      intro q hq
      unfold Path.countLost
      split
      · split
        · show 3 ≤ q.probingLost + 1; omega
        · exact hq
      · show 3 ≤ q.probingLost + 1; omega
    have h3 := hge { p with inFlight := p.inFlight.filter fun c => !decide (c.time ≤ now) } h
    rw [if_pos (Or.inl h3)]
    rfl

end Verif.Props.C83
