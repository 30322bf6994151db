import Verif.Props.C116
import Verif.Props.C35

/-!
# C118: The delay in an ACK frame is that of its largest number

The delay field is the time from the arrival of the packet with the largest number in the frame to
the sending of the frame, in microseconds, divided by two to the power of our exponent. Packets
arrive only once (`once`), so that their time of arrival is well defined.
-/

namespace Verif.Props.C118
open Verif Verif.Ranges Verif.Packet Verif.Ack

/-- The delay of every ACK frame: from the arrival of the packet with its largest number, the one
time when that was no duplicate. -/
theorem delay {y : Y} (h : y.Initial) (l : List Act) {required allowed cwnd fits : Bool} {f : Frame}
    (hs : C116.Sends (y.run l) required allowed cwnd fits f) (n : Nat) (hn : Reports f n)
    (hmax : ∀ m, Reports f m → m ≤ n) :
    ∃ l1 el is l2, l = l1 ++ .recv n el is :: l2 ∧ (y.run l1).sp.seen.contains n = false ∧
      (y.run l1).now ≤ (y.run l).now ∧
      f.delay = ((y.run l).now - (y.run l1).now) / 2 ^ y.exponent := by
  have hi := inv_run h.inv l
  have hi' := inv_step hi (.send required allowed cwnd fits)
  obtain ⟨t', el, h1, h2, h3⟩ := (hi'.sent (y.run l).now f (by rw [hs]; simp)).2.2.2 n ⟨hn, hmax⟩
  have hm : (n, t', el) ∈ (y.run l).rx := by
    rcases send_cases (y.run l) required allowed cwnd fits with ⟨g, hg, -⟩ | hg <;> rw [hg] at h2 <;> exact h2
  obtain ⟨l1, is, l2, e1, e2, e3⟩ := C116.rx_split h.rx l n t' el hm
  refine ⟨l1, el, is, l2, e1, e3, e2 ▸ h1, ?_⟩
  rw [e2, h3, exponent_step, exponent_run]

/-- The packet numbers that arrive are numbers of packets. -/
def Valid (l : List Act) : Prop := ∀ pn el is, Act.recv pn el is ∈ l → pn < 2 ^ 62

theorem filter_run {y : Y} (h : y.Inv) {s : C35.St} (hs : C35.Inv s) (hw : s.w = y.sp.seen)
    (hx : s.seen.reverse = y.rx.map (·.1)) (l : List Act) (hv : Valid l) :
    ((y.run l).rx.map (·.1)).Nodup := by
  induction l generalizing y s with
  | nil => show (y.rx.map (·.1)).Nodup; rw [← hx]; exact List.pairwise_reverse.mpr (hs.nodup.imp Ne.symm)
  | cons a t ih =>
    have hv' : Valid t := fun pn el is hm => hv pn el is (List.mem_cons_of_mem _ hm)
    cases a with
    | recv pn el is =>
      have hp := hv pn el is (List.mem_cons_self ..)
      refine ih (inv_step h _) (C35.inv_arrive hs hp) ?_ ?_ hv'
      all_goals
        cases hc : y.sp.seen.contains pn with
        | true => simp only [C35.arrive, hw, hc, if_true, Y.step]; try exact hx
        | false =>
          obtain ⟨r, s', a1, a2, a3, a4, a5, st, b2, b3, b4, b5, b6, b7, b8⟩ := recv_spec h (el := el) (is := is) hc
          rw [st]
          simp only [C35.arrive, hw, hc, Bool.false_eq_true, if_false, b8, List.reverse_cons, hx, List.map_append,
            List.map_cons, List.map_nil]
    | send required allowed cwnd fits =>
      rcases send_cases y required allowed cwnd fits with ⟨f, hf, -⟩ | hf
      · exact ih (inv_step h _) hs (by rw [hf]; exact hw) (by rw [hf]; exact hx) hv'
      · exact ih (inv_step h _) hs (by rw [hf]; exact hw) (by rw [hf]; exact hx) hv'
    | lost i =>
      refine ih (inv_step h _) hs ?_ ?_ hv' <;> simp only [Y.step] <;> split
      · exact hw
      · exact hw
      · exact hx
      · exact hx
    | tick d => exact ih (inv_step h _) hs hw hx hv'

/-- No number is processed twice, so that each has one time of arrival. -/
theorem once {y : Y} (h : y.Initial) (l : List Act) (hv : Valid l) : ((y.run l).rx.map (·.1)).Nodup :=
  filter_run h.inv C35.inv_init (by rw [h.sp]) (by rw [h.rx]; rfl) l hv

/-! ### Concrete case -/

/-- Packet 4 arrives at 1000, packet 2 at 1800, and the frame is sent at 2600: the delay is 1600
microseconds, since 4 is the largest. -/
def acts : List Act := [.tick 1000, .recv 4 true [], .tick 800, .recv 2 true [], .tick 800]
example : ((Y.run {} acts).step (.send false true false true)).sent.map (fun p => (p.1, p.2.delay, p.2.ranges.ranges)) =
    [(2600, 200, [(2, 3), (4, 5)])] := by decide +kernel
example : 1600 / 2 ^ 3 = 200 := by decide
example : Valid acts := by intro pn el is h; simp [acts] at h; omega

end Verif.Props.C118
