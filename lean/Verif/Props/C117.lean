import Verif.Props.C116

/-!
# C117: Every packet that asks for it is acknowledged

Every ack-eliciting packet that was processed is reported in an ACK frame that was acknowledged, or
in one that was not declared lost, or in the next packet for which there is room. This does not hold
in two cases: if an ACK frame sent before the packet arrived, with a larger number, is acknowledged
before the next ACK frame is sent, the packet is forgotten (`reordering`); and so is the one with
the smallest number when there are more than 68 ranges (`ranges`). It holds otherwise
(`complete_partial`), and in particular when packets arrive in order (`ordered`).
-/

namespace Verif.Props.C117
open Verif Verif.Ranges Verif.Packet Verif.Ack

/-- Some ACK frame sent reports the number. -/
def Reported (y : Y) (n : Nat) : Prop := ∃ t f, (t, f) ∈ y.sent ∧ Reports f n

/-- What ought to hold: each such packet is acknowledged at least once. -/
def Claim : Prop := ∀ (y : Y) (l : List Act), y.Initial → ∀ n t, (n, t, true) ∈ (y.run l).rx →
  Reported (y.run l) n ∨ (y.run l).Due n

/-- What there is to decide about a concrete state. -/
theorem decided {y : Y} {n : Nat} (h1 : y.sent.all (fun p => !p.2.ranges.flatten.contains n) = true)
    (h2 : (y.step (.send false true false true)).sent.all (fun p => !p.2.ranges.flatten.contains n) = true) :
    ¬ (Reported y n ∨ y.Due n) := by
  simp only [List.all_eq_true, Bool.not_eq_true', List.contains_eq_mem, decide_eq_false_iff_not, mem_flatten] at h1 h2
  rintro (⟨t, f, hf, hr⟩ | hd)
  · exact h1 (t, f) hf hr
  · obtain ⟨f, hf, hr⟩ := hd false false
    exact h2 ((y.now), f) (by rw [hf]; simp) hr

/-- Packets 0 and 5 are acknowledged; 3 arrives late; then 6 arrives and acknowledges our ACK frame. -/
def late : List Act := [.recv 0 true [], .recv 5 true [], .send false true false true, .recv 3 true [], .recv 6 true [0]]

theorem reordering : ¬ Claim := by
  intro h
  exact decided (y := Y.run {} late) (n := 3) (by decide +kernel) (by decide +kernel)
    (h {} late ⟨rfl, rfl, rfl, rfl, rfl, rfl⟩ 3 0 (by decide +kernel))

/-- Sixty-nine packets with a gap before each. -/
def gaps : List Act := (List.range 69).map fun i => .recv (2 * i) true []

/-- No frame of ours was acknowledged, and still the first packet is forgotten. -/
theorem ranges : (Y.run {} gaps).acked = [] ∧ (0, 0, true) ∈ (Y.run {} gaps).rx ∧
    ¬ (Reported (Y.run {} gaps) 0 ∨ (Y.run {} gaps).Due 0) :=
  ⟨by decide +kernel, by decide +kernel, decided (by decide +kernel) (by decide +kernel)⟩

/-- With fewer than 68 ranges, and if every ACK frame that is acknowledged reported all that was
received up to its largest number, every packet that asks for it is reported in an ACK frame that was
acknowledged, or in one that was not declared lost, or in the next packet. -/
theorem complete_partial {y : Y} (h : y.Initial) (l : List Act) (hr : y.Room l) (ht : y.OnTime l)
    (n t : Nat) (hn : (n, t, true) ∈ (y.run l).rx) :
    (y.run l).Confirmed (Reports · n) ∨ (y.run l).Outstanding n ∨ (y.run l).Due n := by
  have hc := comp_run h.inv h.comp hr ht
  cases he : (y.run l).sp.elicited with
  | true =>
    rcases hc.all n t hn with h1 | h1
    · exact .inr (.inr (due_of he h1))
    · exact .inl h1
  | false =>
    rcases hc.out he n t hn with h1 | h1
    · exact .inr (.inl h1)
    · exact .inl h1

/-- The same for packets that arrive in order. -/
theorem ordered {y : Y} (h : y.Initial) (l : List Act) (hr : y.Room l) (ho : y.Ordered l)
    (n t : Nat) (hn : (n, t, true) ∈ (y.run l).rx) :
    (y.run l).Confirmed (Reports · n) ∨ (y.run l).Outstanding n ∨ (y.run l).Due n :=
  complete_partial h l hr (onTime h.inv h.comp h.cover hr ho) n t hn

/-- In any order: every ACK frame reports every number processed so far, except those up to the
largest number of an ACK frame that was acknowledged. -/
theorem kept {y : Y} (h : y.Initial) (l : List Act) (hr : y.Room l) {required allowed cwnd fits : Bool} {f : Frame}
    (hs : C116.Sends (y.run l) required allowed cwnd fits f) (n t : Nat) (el : Bool) (hn : (n, t, el) ∈ (y.run l).rx) :
    Reports f n ∨ (y.run l).Confirmed (fun g => ∃ k, Reports g k ∧ n ≤ k) := by
  rcases send_cases (y.run l) required allowed cwnd fits with ⟨g, hg, hgr⟩ | hg
  · unfold C116.Sends at hs
    rw [hg] at hs
    simp only [List.append_cancel_left_eq, List.cons.injEq, Prod.mk.injEq, true_and, and_true] at hs
    subst hs
    rcases kept_run h.inv h.kept hr n t el hn with h1 | h1
    · left; unfold Reports; rw [hgr]; exact h1
    · exact .inr h1
  · unfold C116.Sends at hs
    rw [hg] at hs
    simp at hs

/-- Where a packet is processed it is the last entry of those received: nothing else than
duplicates is left out. -/
theorem processed {y : Y} (h : y.Initial) (l : List Act) (pn : Nat) (el : Bool) (is : List Nat)
    (hs : (y.run l).sp.seen.contains pn = false) :
    (y.run (l ++ [.recv pn el is])).rx = (y.run l).rx ++ [(pn, (y.run l).now, el)] := by
  obtain ⟨r, s', a1, a2, a3, a4, a5, st, -⟩ := recv_spec (inv_run h.inv l) (el := el) (is := is) hs
  have hrun : y.run (l ++ [.recv pn el is]) = (y.run l).step (.recv pn el is) := by simp [Y.run, List.foldl_append]
  rw [hrun, st]

/-! ### Concrete cases -/

/-- A lost ACK frame is followed by another one. -/
def again : List Act := [.recv 0 true [], .recv 2 true [], .send false true false true, .lost 0]
example : (Y.run {} again).Room [] := trivial
example : Y.Room {} again := by
  refine ⟨?_, ?_, ?_, ?_, trivial⟩ <;> decide +kernel
example : Y.Ordered {} again := by
  refine ⟨?_, ?_, trivial, trivial, trivial⟩
  · intro n t el hn; exact absurd hn (by simp)
  · intro n t el hn
    have : (n, t, el) ∈ [(0, 0, true)] := hn
    simp at this; omega
example : ((Y.run {} again).step (.send false true false true)).sent.map (·.2.ranges.ranges) =
    [[(0, 1), (2, 3)], [(0, 1), (2, 3)]] := by decide +kernel
/-- The late packet is not acknowledged, neither in the frame before nor in the one after. -/
example : ((Y.run {} late).step (.send false true false true)).sent.map (·.2.ranges.ranges) =
    [[(0, 1), (5, 6)], [(6, 7)]] := by decide +kernel
/-- A packet that does not ask for it is not acknowledged by itself. -/
example : ((Y.run {} [.recv 0 false []]).step (.send false true true true)).sent.length = 0 := by decide +kernel

end Verif.Props.C117
