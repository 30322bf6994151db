import Verif.Ack.Complete

/-!
# C116: Only packets that were received are acknowledged

In any execution, every number in an ACK frame is that of a packet that arrived and was processed
before; the ranges of the frame are not empty, in order and apart, so that the frame can be encoded;
and nothing panics.
-/

namespace Verif.Props.C116
open Verif Verif.Ranges Verif.Packet Verif.Ack

/-- This frame is sent when a packet is built now. -/
def Sends (y : Y) (required allowed cwnd fits : Bool) (f : Frame) : Prop :=
  (y.step (.send required allowed cwnd fits)).sent = y.sent ++ [(y.now, f)]

theorem rx_split {y : Y} (hx : y.rx = []) (l : List Act) : ∀ n t el, (n, t, el) ∈ (y.run l).rx →
    ∃ l1 is l2, l = l1 ++ .recv n el is :: l2 ∧ (y.run l1).now = t ∧ (y.run l1).sp.seen.contains n = false := by
  suffices h : ∀ (k l : List Act), (∀ n t el, (n, t, el) ∈ (y.run k).rx →
      ∃ l1 is l2, k = l1 ++ .recv n el is :: l2 ∧ (y.run l1).now = t ∧ (y.run l1).sp.seen.contains n = false) →
      ∀ n t el, (n, t, el) ∈ (y.run (k ++ l)).rx →
      ∃ l1 is l2, k ++ l = l1 ++ .recv n el is :: l2 ∧ (y.run l1).now = t ∧ (y.run l1).sp.seen.contains n = false by
    exact h [] l (fun n t el hn => by
      have : (n, t, el) ∈ y.rx := hn
      rw [hx] at this; simp at this)
  intro k l
  induction l generalizing k with
  | nil => intro h; simpa using h
  | cons a t ih =>
    intro h
    have := ih (k ++ [a]) ?_
    · simpa using this
    intro n t' el hn
    have hrun : y.run (k ++ [a]) = (y.run k).step a := by simp [Y.run, List.foldl_append]
    rw [hrun] at hn
    have old : (n, t', el) ∈ (y.run k).rx → ∃ l1 is l2, k ++ [a] = l1 ++ .recv n el is :: l2 ∧
        (y.run l1).now = t' ∧ (y.run l1).sp.seen.contains n = false := by
      intro hn
      obtain ⟨l1, is, l2, h1, h2⟩ := h n t' el hn
      exact ⟨l1, is, l2 ++ [a], by rw [h1]; simp, h2⟩
    cases a with
    | recv pn e is =>
      simp only [Y.step] at hn
      split at hn
      · exact old hn
      · rename_i hs
        split at hn
        · exact old hn
        · rcases List.mem_append.mp hn with hn | hn
          · exact old hn
          · simp only [List.mem_singleton, Prod.mk.injEq] at hn
            obtain ⟨rfl, rfl, rfl⟩ := hn
            exact ⟨k, is, [], rfl, rfl, by simpa using hs⟩
    | send required allowed cwnd fits =>
      rcases send_cases (y.run k) required allowed cwnd fits with ⟨f, hf, -⟩ | hf
      · rw [hf] at hn; exact old hn
      · rw [hf] at hn; exact old hn
    | lost i =>
      simp only [Y.step] at hn
      split at hn <;> exact old hn
    | tick d => exact old hn

/-- Every number acknowledged is that of a packet that arrived before, and was not a duplicate then. -/
theorem sound {y : Y} (h : y.Initial) (l : List Act) {required allowed cwnd fits : Bool} {f : Frame}
    (hs : Sends (y.run l) required allowed cwnd fits f) (n : Nat) (hn : Reports f n) :
    ∃ l1 el is l2, l = l1 ++ .recv n el is :: l2 ∧ (y.run l1).sp.seen.contains n = false := by
  have hi := inv_run h.inv l
  have hi' := inv_step hi (.send required allowed cwnd fits)
  have := (hi'.sent (y.run l).now f (by rw [hs]; simp)).2.2.1 n hn
  obtain ⟨t, el, -, hm⟩ := this
  have hm : (n, t, el) ∈ (y.run l).rx := by
    rcases send_cases (y.run l) required allowed cwnd fits with ⟨g, hg, -⟩ | hg <;> rw [hg] at hm <;> exact hm
  obtain ⟨l1, is, l2, h1, -, h3⟩ := rx_split h.rx l n t el hm
  exact ⟨l1, el, is, l2, h1, h3⟩

/-- The frame can be encoded: there is a range, no range is empty, and between two there is a number
that is not acknowledged; there are at most 68. -/
theorem wellformed {y : Y} (h : y.Initial) (l : List Act) {t : Nat} {f : Frame} (hf : (t, f) ∈ (y.run l).sent) :
    f.ranges.ranges ≠ [] ∧ (∀ r ∈ f.ranges.ranges, r.1 < r.2) ∧
      f.ranges.ranges.Pairwise (fun a b => a.2 < b.1) ∧ f.ranges.ranges.length ≤ 68 := by
  have hs := ((inv_run h.inv l).sent t f hf).2.1
  have := hs.good.inv.2.1
  rw [hs.good.cap] at this
  exact ⟨hs.some, hs.good.full, hs.good.inv.1.1, this⟩

theorem no_panic {y : Y} (h : y.Initial) (l : List Act) : (y.run l).panicked = false :=
  (inv_run h.inv l).panicked

/-! ### Concrete case -/

/-- Packets 0, 1, 4 and 2 arrive, the last one twice. -/
def acts : List Act := [.recv 0 true [], .recv 1 false [], .recv 4 true [], .recv 2 true [], .recv 2 true []]

example : (Y.Initial {}) := ⟨rfl, rfl, rfl, rfl, rfl, rfl⟩
example : (Y.run {} acts).rx = [(0, 0, true), (1, 0, false), (4, 0, true), (2, 0, true)] := by decide +kernel
example : ((Y.run {} acts).step (.send false true false true)).sent.map (·.2.ranges.ranges) =
    [[(0, 3), (4, 5)]] := by decide +kernel
/-- The ACK frame is acknowledged with packet 6, so that only 6 is left. -/
example : ((Y.run {} (acts ++ [.send false true false true, .recv 6 true [0]])).step (.send false true false true)).sent.map
    (·.2.ranges.ranges) = [[(0, 3), (4, 5)], [(6, 7)]] := by decide +kernel

end Verif.Props.C116
