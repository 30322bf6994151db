import Verif.Rec.Account

/-!
C46. Bytes in flight are accounted exactly.

The specification is a ledger kept from outside: a packet sent in flight is entered with
its weight; an ACK removes the packets in its ranges, a loss report those reported, and
discarding a packet number space all of it. The claim is that the bytes in flight are the
weight of the ledger.

With the weight of a packet as written to the wire the claim is false (`bytes_false`): a
packet that has padding but is not ack-eliciting counts as in flight but with size 0
(lib.rs:5449). With that size it holds (`bytes_partial`), for every congestion controller
and every history in which the peer did not acknowledge a skipped packet number; and also
with the written size when all packets in flight are ack-eliciting
(`bytes_eliciting_partial`). The number of packets in flight is right in every history,
so that it is never decremented below zero (`count_exact`, `count_nonneg`).
-/

namespace Verif.Props.C46

open Verif.Rec

variable {σ : Type}

/-- The ledger: per space the number and weight of the packets in flight. -/
abbrev Ledger := Epoch → List (Nat × Nat)

/-- What the call itself does. `w` is the weight of a packet. -/
def enter (w : Pkt → Nat) (L : Ledger) (e : Epoch) : Op → List (Nat × Nat)
  | .send e' p _ _ => if e' = e ∧ p.inFlight = true then L e ++ [(p.pn, w p)] else L e
  | .ack e' ranges _ _ _ _ => if e' = e then (L e).filter fun x => ranges.all fun r => !decide (r.1 ≤ x.1 ∧ x.1 < r.2) else L e
  | .discard e' _ _ => if e' = e then [] else L e
  | _ => L e

/-- The packets reported lost are removed. -/
def strike (o : Out) (e : Epoch) (l : List (Nat × Nat)) : List (Nat × Nat) :=
  if o.epoch = e then l.filter fun x => !(o.lost.any fun p => p.pn == x.1) else l

/-- The ledger after some calls. -/
def ledger (w : Pkt → Nat) : Ledger → List (Op × Out) → Ledger
  | L, [] => L
  | L, x :: xs => ledger w (fun e => strike x.2 e (enter w L e x.1)) xs

/-- The weight of a ledger. -/
def sum (L : Ledger) : Nat := weight (L .initial) + weight (L .handshake) + weight (L .application)

/-- The size recorded for a packet (lib.rs:5449). -/
def recorded (p : Pkt) : Nat := if p.ackEliciting = true then p.written else 0

theorem strike_none (e : Epoch) (l : List (Nat × Nat)) : strike Out.none e l = l := by
  unfold strike
  split
  · rw [List.filter_eq_self]; intro x _; rfl
  · rfl

/-- The packets in flight follow the ledger in every call that does not fail. -/
theorem step_ledger (en : Env σ) {s : State σ} {o : Op} (h : StateInv s) (L : Ledger)
    (hL : ∀ e, outstanding (s.get e).sent = L e) (hf : (step en s o).1.failed = false) (e : Epoch) :
    outstanding ((step en s o).1.get e).sent = strike (step en s o).2 e (enter recorded L e o) := by
  cases o with
  | send e' p st now =>
    show outstanding ((s.onSent en e' (p.sent now) st now).get e).sent = strike Out.none e _
    rw [strike_none, onSent_get]
    simp only [enter]
    by_cases he : e = e'
    · subst he
      rw [if_pos rfl]
      show outstanding ((s.get e).sent ++ [p.sent now]) = _
      rw [outstanding_append, outstanding_cons, hL e]
      have hl : (p.sent now).live = true := rfl
      have hi : (p.sent now).inFlight = p.inFlight := rfl
      cases hp : p.inFlight with
      | true => simp [Sent.open, hl, hi, hp]; exact ⟨rfl, rfl⟩
      | false => simp [Sent.open, hl, hi, hp]
    · rw [if_neg he, if_neg (by rintro ⟨h, _⟩; exact he h.symm)]
      exact hL e
  | ack e' rs delay st now skip =>
    have hf' : (s.onAck en e' rs delay st now skip).1.failed = false := hf
    show outstanding ((s.onAck en e' rs delay st now skip).1.get e).sent = strike (s.onAck en e' rs delay st now skip).2 e _
    simp only [enter]
    rcases onAck_cases en s e' rs delay st now skip with ⟨_, he⟩ | ⟨hnf, hn, he⟩ | ⟨hnf, last, hl, he⟩
    · rw [he] at hf'; cases hf'
    · rw [he, strike_none, spurious_get, get_set]
      by_cases hee : e = e'
      · subst hee
        rw [if_pos rfl, if_pos rfl, acked_out now s.rtt.smoothed skip rs (h e) hnf, hL e]
        rfl
      · rw [if_neg hee, if_neg (fun h => hee h.symm)]; exact hL e
    · rw [he]
      have hinv := ackedSet_inv h en e' now skip rs ((s.get e').acked now s.rtt.smoothed skip rs).2.1
      rw [ackTail_out en hinv]
      unfold strike
      rw [(ackTail_lost ..).2.2]
      by_cases hee : e = e'
      · subst hee
        rw [if_pos rfl, if_pos rfl, if_pos rfl, spurious_get, get_set_same, acked_out now s.rtt.smoothed skip rs (h e) hnf, hL e]
        rfl
      · rw [if_neg hee, if_neg (fun h => hee h.symm), if_neg (fun h => hee h.symm), spurious_get, get_set_other _ _ hee]
        exact hL e
  | timeout st now =>
    show outstanding ((s.onTimeout en st now).1.get e).sent = strike (s.onTimeout en st now).2 e (L e)
    unfold State.onTimeout
    split
    · dsimp only
      rw [setTimer_get, detectLost_out en s h]
      unfold strike
      dsimp only
      by_cases hee : e = s.lossTimeAndSpace.2
      · rw [if_pos hee, if_pos hee.symm, ← hee, hL e]; rfl
      · rw [if_neg hee, if_neg (fun h => hee h.symm)]; exact hL e
    · dsimp only
      rw [strike_none, (onPto_get s st now e).1]; exact hL e
  | discard e' st now =>
    show outstanding ((s.onDiscard e' st now).get e).sent = strike Out.none e _
    rw [strike_none, onDiscard_get]
    simp only [enter]
    by_cases hee : e = e'
    · rw [if_pos hee, if_pos hee.symm]; rfl
    · rw [if_neg hee, if_neg (fun h => hee h.symm)]; exact hL e
  | pathChange e' now =>
    show outstanding ((s.detectLost en e' now).2.get e).sent = strike (s.onPathChange en e' now).2 e (L e)
    rw [detectLost_out en s h]
    unfold strike
    show _ = if e' = e then (L e).filter (notIn (s.detectLost en e' now).1.lost) else L e
    by_cases hee : e = e'
    · subst hee; rw [if_pos rfl, if_pos rfl, hL e]
    · rw [if_neg hee, if_neg (fun h => hee h.symm)]; exact hL e
  | pingSent e' =>
    have hq := step_quiet en s _ (Or.inl ⟨e', rfl⟩) e
    rw [hq.1, hq.2.2.2.2, strike_none]; exact hL e
  | nextAcked e' =>
    have hq := step_quiet en s _ (Or.inr (Or.inl ⟨e', rfl⟩)) e
    rw [hq.1, hq.2.2.2.2, strike_none]; exact hL e
  | nextLost e' =>
    have hq := step_quiet en s _ (Or.inr (Or.inr (Or.inl ⟨e', rfl⟩))) e
    rw [hq.1, hq.2.2.2.2, strike_none]; exact hL e
  | ackDelay d =>
    have hq := step_quiet en s _ (Or.inr (Or.inr (Or.inr ⟨d, rfl⟩))) e
    rw [hq.1, hq.2.2.2.2, strike_none]; exact hL e

theorem run_failed (en : Env σ) : ∀ (os : List Op) (s : State σ), s.failed = true → (run en s os).1.failed = true
  | [], _, h => h
  | o :: os, s, h => run_failed en os _ (step_failed en s o h)

theorem run_ledger (en : Env σ) : ∀ (os : List Op) (s : State σ) (L : Ledger), WellSent os → AllBefore s os → StateInv s →
    (∀ e, outstanding (s.get e).sent = L e) → s.flight.bytes = total s → (run en s os).1.failed = false →
    StateInv (run en s os).1 ∧ (∀ e, outstanding ((run en s os).1.get e).sent = ledger recorded L (run en s os).2 e) ∧
    (run en s os).1.flight.bytes = total (run en s os).1
  | [], _, _, _, _, h, hL, hb, _ => ⟨h, hL, hb⟩
  | o :: os, s, L, hw, hbf, h, hL, hb, hf => by
    have hf1 : (step en s o).1.failed = false := by
      cases hx : (step en s o).1.failed with
      | false => rfl
      | true => have := run_failed en os _ hx; rw [show (run en s (o :: os)).1 = (run en (step en s o).1 os).1 from rfl, this] at hf; cases hf
    exact run_ledger en os (step en s o).1 (fun e => strike (step en s o).2 e (enter recorded L e o)) hw.tail
      (step_before en hw hbf) (step_inv en hw hbf h) (step_ledger en h L hL hf1) (step_bytes en h hb hf1) hf

theorem run_inv (en : Env σ) : ∀ (os : List Op) (s : State σ), WellSent os → AllBefore s os → StateInv s → StateInv (run en s os).1
  | [], _, _, _, h => h
  | _ :: os, _, hw, hbf, h => run_inv en os _ hw.tail (step_before en hw hbf) (step_inv en hw hbf h)

theorem new_inv (t0 r d : Nat) (c : σ) : StateInv (State.new t0 r d c) := by intro e; cases e <;> exact spaceInv_new
theorem new_before (t0 r d : Nat) (c : σ) (os : List Op) : AllBefore (State.new t0 r d c) os := by
  intro e p hp; cases e <;> cases hp

/-- The empty ledger. -/
def nothing : Ledger := fun _ => []

/-- Bytes in flight are the recorded sizes of the packets sent in flight and neither
acknowledged, reported lost nor discarded. Missing: the size of packets with padding that
are not ack-eliciting, and histories in which the peer acknowledged a skipped packet
number (the connection is closed then). -/
theorem bytes_partial (en : Env σ) (t0 r d : Nat) (c : σ) (ops : List Op) (hw : WellSent ops)
    (hf : (run en (State.new t0 r d c) ops).1.failed = false) :
    (run en (State.new t0 r d c) ops).1.flight.bytes = sum (ledger recorded nothing (run en (State.new t0 r d c) ops).2) := by
  obtain ⟨_, h2, h3⟩ := run_ledger en ops (State.new t0 r d c) nothing hw (new_before t0 r d c ops) (new_inv t0 r d c)
    (by intro e; cases e <;> rfl) rfl hf
  rw [h3]
  unfold total sum
  rw [← h2 .initial, ← h2 .handshake, ← h2 .application]
  rfl

/-- The number of packets in flight is that of the ledger. -/
theorem count_exact (en : Env σ) (t0 r d : Nat) (c : σ) (ops : List Op) (hw : WellSent ops)
    (hf : (run en (State.new t0 r d c) ops).1.failed = false) (e : Epoch) :
    ((run en (State.new t0 r d c) ops).1.get e).inFlightCount =
      ((ledger recorded nothing (run en (State.new t0 r d c) ops).2 e).length : Int) := by
  obtain ⟨h1, h2, _⟩ := run_ledger en ops (State.new t0 r d c) nothing hw (new_before t0 r d c ops) (new_inv t0 r d c)
    (by intro e; cases e <;> rfl) rfl hf
  rw [← h2 e]; exact (h1 e).count

/-- The number of packets in flight never goes below zero, whatever the peer sends. -/
theorem count_nonneg (en : Env σ) (t0 r d : Nat) (c : σ) (ops : List Op) (hw : WellSent ops) (e : Epoch) :
    0 ≤ ((run en (State.new t0 r d c) ops).1.get e).inFlightCount := by
  rw [(run_inv en ops _ hw (new_before t0 r d c ops) (new_inv t0 r d c) e).count]
  exact Int.natCast_nonneg _

theorem ledger_congr {w w' : Pkt → Nat} (en : Env σ) : ∀ (os : List Op) (s : State σ) (L : Ledger),
    (∀ e, ∀ p ∈ sends e os, p.inFlight = true → w p = w' p) → ledger w L (run en s os).2 = ledger w' L (run en s os).2
  | [], _, _, _ => rfl
  | o :: os, s, L, h => by
    show ledger w (fun e => strike (step en s o).2 e (enter w L e o)) (run en (step en s o).1 os).2 =
      ledger w' (fun e => strike (step en s o).2 e (enter w' L e o)) (run en (step en s o).1 os).2
    have he : (fun e => strike (step en s o).2 e (enter w L e o)) = fun e => strike (step en s o).2 e (enter w' L e o) := by
      funext e
      congr 1
      cases o with
      | send e' p st now =>
        simp only [enter]
        split
        · rename_i hh
          rw [h e p (by rw [sends_cons]; simp [hh.1]) hh.2]
        · rfl
      | _ => rfl
    rw [he]
    exact ledger_congr en os _ _ fun e p hp => h e p (sends_tail hp)

/-- If only ack-eliciting packets are in flight the bytes are those written. -/
theorem bytes_eliciting_partial (en : Env σ) (t0 r d : Nat) (c : σ) (ops : List Op) (hw : WellSent ops)
    (hel : ∀ e, ∀ p ∈ sends e ops, p.inFlight = true → p.ackEliciting = true)
    (hf : (run en (State.new t0 r d c) ops).1.failed = false) :
    (run en (State.new t0 r d c) ops).1.flight.bytes = sum (ledger Pkt.written nothing (run en (State.new t0 r d c) ops).2) := by
  rw [bytes_partial en t0 r d c ops hw hf]
  rw [ledger_congr (w := recorded) (w' := Pkt.written) en ops]
  intro e p hp hi
  unfold recorded
  rw [if_pos (hel e p hp hi)]

/-! ### Witnesses -/

/-- A controller that does nothing, and no scaling. -/
def trivialEnv : Env Unit :=
  ⟨⟨fun _ _ _ _ _ _ => (), fun _ _ => false, fun _ => (), fun _ _ _ _ _ => (), fun _ _ => (), fun _ => (), fun _ _ _ _ _ => ()⟩,
   fun _ d => d, fun w => w / 4, fun w => w / 2⟩

def s0 : State Unit := State.new 0 333000000 25000000 ()
def done : Status := ⟨true, true, true⟩

/-- An ACK with padding, as sent on a path that is not validated. -/
def padded : Pkt := { pn := 7, frames := [1], written := 1200, ackEliciting := false, inFlight := true, hasData := false, probe := false }

/-- The claim with the sizes as written is false. -/
theorem bytes_false : ∃ ops : List Op, WellSent ops ∧ (run trivialEnv s0 ops).1.failed = false ∧
    (run trivialEnv s0 ops).1.flight.bytes ≠ sum (ledger Pkt.written nothing (run trivialEnv s0 ops).2) := by
  refine ⟨[.send .application padded done 1000], ⟨?_, ?_⟩, by decide +kernel, by decide +kernel⟩
  · intro e; cases e <;> simp [sends]
  · intro e p hp; cases e <;> simp [sends] at hp <;> subst hp <;> decide

def data (n : Nat) : Pkt := { pn := n, frames := [n], written := 1000 + n, ackEliciting := true, inFlight := true, hasData := true, probe := false }

/-- Six packets; the last is acknowledged twice, the first three are lost by the packet
threshold, one of them is then acknowledged after all: two packets stay in flight. -/
example :
    let ops := (List.range 6).map (fun n => Op.send .application (data n) done (1000 + n)) ++
      [.ack .application [(5, 6)] 0 done 2000 none, .ack .application [(5, 6)] 0 done 2100 none,
       .ack .application [(1, 2)] 0 done 2200 none]
    ((run trivialEnv s0 ops).1.flight.bytes, (run trivialEnv s0 ops).1.application.inFlightCount,
      (run trivialEnv s0 ops).2.map fun x => x.2.lost.map Sent.pn) =
    (2007, 2, [[], [], [], [], [], [], [0, 1, 2], [], []]) := by decide +kernel

/-- An acknowledged skipped packet number leaves the bytes of the packets acknowledged by
lower ranges in flight; the connection is closed. -/
example :
    let ops := [Op.send .application (data 0) done 1000, .ack .application [(0, 1), (4, 6)] 0 done 2000 (some 5)]
    ((run trivialEnv s0 ops).1.flight.bytes, (run trivialEnv s0 ops).1.application.inFlightCount, (run trivialEnv s0 ops).1.failed) =
    (1000, 0, true) := by decide +kernel

end Verif.Props.C46
