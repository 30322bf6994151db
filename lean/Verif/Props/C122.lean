import Verif.Cong.Lemmas

/-!
C122: the congestion window has a floor of two datagrams, and nothing underflows.
-/

namespace Verif.Props.C122

open Verif.Rec Verif.Cong

variable {φ : Type}

/-- All datagram sizes set in a history are at least `lo`. -/
def SizesFrom (lo : Nat) (calls : List Call) : Prop := ∀ n, (Call.pmtu n ∈ calls ∨ Call.peerMax n ∈ calls) → lo ≤ n

/-- What holds after every call. -/
structure Inv (lo size pkts : Nat) (s : Sys φ) : Prop where
  cwnd : lo * Nat.min pkts 2 ≤ s.core.cc.cwnd
  mds : s.core.cc.mds = size
  pkts : s.core.cc.initPkts = pkts
  size : lo ≤ s.size
  lost : s.core.cc.prior.lost ≤ s.core.cc.lostCount

theorem setSize_inv {lo size pkts n : Nat} {s : Sys φ} (h : Inv lo size pkts s) (hn : lo ≤ n) : Inv lo size pkts (s.setSize n) := by
  unfold Sys.setSize
  refine ⟨?_, ?_, ?_, hn, ?_⟩
  · dsimp only
    split
    · show lo * Nat.min pkts 2 ≤ n * s.core.cc.initPkts
      rw [h.pkts]
      exact Nat.mul_le_mul hn (Nat.min_le_left _ _)
    · exact h.cwnd
  all_goals dsimp only; split
  · exact h.mds
  · exact h.mds
  · exact h.pkts
  · exact h.pkts
  · exact h.lost
  · exact h.lost

theorem step_inv (f : Curve φ) (a : Algo) (scale : Bool → Nat → Nat) (q hf : Nat → Nat) {lo size pkts : Nat} (hlo : lo ≤ size) {s : Sys φ}
    (h : Inv lo size pkts s) (c : Call) (hc : SizesFrom lo [c]) : Inv lo size pkts (s.step (env f a scale q hf) c).1 := by
  cases c with
  | base o =>
    have hm := step_move (env f a scale q hf) s.core o
    have := move_keeps f a (fun x => lo * Nat.min pkts 2 ≤ x.cwnd ∧ x.mds = size ∧ x.initPkts = pkts ∧ x.prior.lost ≤ x.lostCount)
      (fun x y hx hg => ⟨Nat.le_trans hx.1 hg.cwnd, hg.mds.trans hx.2.1, hg.initPkts.trans hx.2.2.1, by rw [hg.prior, hg.lost]; exact hx.2.2.2⟩)
      (fun x y now hx hcut => by
        refine ⟨?_, hcut.mds.trans hx.2.1, hcut.initPkts.trans hx.2.2.1, ?_⟩
        · rw [hcut.cwnd]
          refine Nat.le_trans ?_ (cut_ge f a x)
          rw [hx.2.1, Nat.mul_comm]
          exact Nat.mul_le_mul (Nat.min_le_right _ _) hlo
        · rw [hcut.lost]
          cases a with
          | reno => rw [(hcut.reno rfl).1]; exact hx.2.2.2
          | cubic => rw [(hcut.prior rfl).2.2.2]; exact Nat.le_refl _)
      (fun x n hx => ⟨hx.1, hx.2.1, hx.2.2.1, Nat.le_trans hx.2.2.2 (Nat.le_add_right _ _)⟩)
      ⟨h.cwnd, h.mds, h.pkts, h.lost⟩ hm
    exact ⟨this.1, this.2.1, this.2.2.1, h.size, this.2.2.2⟩
  | limited v => exact ⟨h.cwnd, h.mds, h.pkts, h.size, h.lost⟩
  | pmtu n => exact setSize_inv h (hc n (Or.inl (List.mem_singleton.2 rfl)))
  | peerMax n =>
    refine setSize_inv h ?_
    have := hc n (Or.inr (List.mem_singleton.2 rfl))
    exact Nat.le_min.2 ⟨h.size, this⟩

theorem run_inv (f : Curve φ) (a : Algo) (scale : Bool → Nat → Nat) (q hf : Nat → Nat) {lo size pkts : Nat} (hlo : lo ≤ size) :
    ∀ (calls : List Call) (s : Sys φ), SizesFrom lo calls → Inv lo size pkts s → Inv lo size pkts (s.run (env f a scale q hf) calls) := by
  intro calls
  induction calls with
  | nil => intro s _ h; exact h
  | cons c calls ih =>
    intro s hc h
    refine ih _ (fun n hn => hc n ?_) (step_inv f a scale q hf hlo h c (fun n hn => hc n ?_))
    · rcases hn with hn | hn
      · exact Or.inl (List.mem_cons_of_mem _ hn)
      · exact Or.inr (List.mem_cons_of_mem _ hn)
    · rcases hn with hn | hn
      · rw [List.mem_singleton] at hn; rw [← hn]; exact Or.inl List.mem_cons_self
      · rw [List.mem_singleton] at hn; rw [← hn]; exact Or.inr List.mem_cons_self

/-- The window that can be asked for is never below two datagrams of the smallest size in
use so far (one if the configured initial window is one datagram), whatever is sent,
acknowledged and lost, for Reno and for CUBIC. -/
theorem floor_partial (f : Curve φ) (a : Algo) (scale : Bool → Nat → Nat) (q hf : Nat → Nat) (size pkts : Nat) (hy fix : Bool) (t0 r d lo : Nat)
    (calls : List Call) (hlo : lo ≤ size) (hc : SizesFrom lo calls) :
    lo * Nat.min pkts 2 ≤ ((Sys.new f size pkts hy fix t0 r d).run (env f a scale q hf) calls).core.cc.cwnd :=
  (run_inv f a scale q hf hlo calls _ hc
    ⟨Nat.mul_le_mul hlo (Nat.min_le_left _ _), rfl, rfl, hlo, Nat.le_refl _⟩ : Inv lo size pkts _).cwnd

/-- The subtraction of the lost packets counted before a reduction (cubic.rs:239) does not
underflow, and the window and the datagram size, by which is divided (cubic.rs:241, 341),
are not zero. -/
theorem no_panic (f : Curve φ) (a : Algo) (scale : Bool → Nat → Nat) (q hf : Nat → Nat) (size pkts : Nat) (hy fix : Bool) (t0 r d : Nat)
    (calls : List Call) (hs : 0 < size) (hp : 0 < pkts) (hc : SizesFrom 1 calls) :
    ((Sys.new f size pkts hy fix t0 r d).run (env f a scale q hf) calls).core.cc.prior.lost ≤
      ((Sys.new f size pkts hy fix t0 r d).run (env f a scale q hf) calls).core.cc.lostCount ∧
    0 < ((Sys.new f size pkts hy fix t0 r d).run (env f a scale q hf) calls).core.cc.cwnd ∧
    0 < ((Sys.new f size pkts hy fix t0 r d).run (env f a scale q hf) calls).core.cc.mds := by
  have h : Inv 1 size pkts ((Sys.new f size pkts hy fix t0 r d).run (env f a scale q hf) calls) :=
    run_inv f a scale q hf hs calls _ hc ⟨Nat.mul_le_mul hs (Nat.min_le_left _ _), rfl, rfl, hs, Nat.le_refl _⟩
  refine ⟨h.lost, ?_, by rw [h.mds]; exact hs⟩
  have h1 := h.cwnd
  have : 1 ≤ Nat.min pkts 2 := Nat.le_min.2 ⟨hp, by decide⟩
  omega

/-! ### Witnesses -/

/-- A curve that never asks for growth, and a factor of 7/10. -/
def flat : Curve Unit :=
  ⟨(), fun _ => false, fun _ _ => (), fun _ _ _ _ => (), fun _ _ _ _ => (), fun _ _ _ => 0, fun _ _ _ => none, fun _ _ => (), fun x => x * 7 / 10⟩

/-- A history of recovery with Reno or CUBIC; the time threshold is 9/8. -/
def with_ (a : Algo) : Env (St Unit) := env flat a (fun _ d => d * 9 / 8) (fun w => w / 4) (fun w => w / 2)

def done : Status := ⟨true, true, true⟩
/-- A packet of the application, of the given size. -/
def pkt (pn size : Nat) : Pkt := ⟨pn, [], size, true, true, true, false⟩
/-- It is sent at the given time (ms). -/
def tx (pn size ms : Nat) : Call := .base (.send .application (pkt pn size) done (ms * 1000000))
/-- An ACK of some packet numbers at the given time (ms). -/
def ack (rs : List (Nat × Nat)) (ms : Nat) : Call := .base (.ack .application rs 0 done (ms * 1000000) none)
/-- The loss timer fires. -/
def timer (ms : Nat) : Call := .base (.timeout done (ms * 1000000))

def start (pkts : Nat) : Sys Unit := Sys.new flat 1200 pkts false true 0 333000000 25000000

/-- Six packets, one per millisecond, of which the second is lost, then six more of which
the second is lost, and so on. -/
def rounds : Nat → List Call
  | 0 => []
  | n + 1 =>
    rounds n ++ ((List.range 6).map fun i => tx (6 * n + i) 1200 (200 * n + i)) ++
      [ack [(6 * n, 6 * n + 1), (6 * n + 2, 6 * n + 6)] (200 * n + 110)]

-- The floor is reached: four reductions from a window of ten datagrams.
example : (((start 10).run (with_ .reno) (rounds 4)).core.cc.cwnd, ((start 10).run (with_ .reno) (rounds 5)).core.cc.cwnd) = (2400, 2400) := by
  decide +kernel
example : ((start 10).run (with_ .cubic) (rounds 8)).core.cc.cwnd = 2400 := by decide +kernel
-- With an initial window of one datagram the first reduction raises the window.
example : (((start 1).run (with_ .reno) []).core.cc.cwnd, ((start 1).run (with_ .reno) (rounds 1)).core.cc.cwnd) = (1200, 2400) := by
  decide +kernel

/-- RFC 9002, 7.2: the minimum window is two datagrams of the size in use. It is false:
when path MTU discovery raises the datagram size, the controller keeps the size it was
configured with, and its floor is two datagrams of that. -/
theorem claim_false : ¬ ∀ (calls : List Call) (a : Algo), SizesFrom 1200 calls →
    2 * ((start 10).run (with_ a) calls).size ≤ ((start 10).run (with_ a) calls).core.cc.cwnd := by
  intro h
  have := h (rounds 4 ++ [.pmtu 1500] ++ rounds 1) .reno (by
    intro n hn
    have : n = 1500 := by
      rcases hn with hn | hn <;> revert hn <;>
        simp [rounds, tx, ack, List.range_succ]
    omega)
  revert this
  decide +kernel

end Verif.Props.C122
