import Verif.GRec.Trace

/-!
C130. With BBR, bytes in flight are accounted exactly.

The specification is a ledger kept from outside: a packet sent in flight is entered with
its weight; an ACK removes the packets in its ranges, a loss report those reported, and
discarding a packet number space all of it. The claim is that the bytes in flight are the
weight of the ledger, in every history and for every congestion controller.

With the weight of a packet as written to the wire the claim is false (`bytes_false`): a
packet that has padding but is not ack-eliciting counts as in flight but with size 0
(lib.rs:5449). With that size it holds (`bytes_partial`), as long as the peer did not
acknowledge a skipped packet number; after that it need not (`after_skip_false`), but the
connection is closed then. The number of packets in flight is right in every history
(`count_exact`), so that it is never decremented below zero.
-/

namespace Verif.Props.C130

open Verif.GRec
open Verif.Rec (Epoch Status Rtt)

variable {σ : Type}

/-- The ledger: per space the number and weight of the packets in flight. -/
abbrev Ledger := Epoch → List (Nat × Nat)

/-- What the call itself does. `w` is the weight of a packet. -/
def enter (w : Pkt → Nat) (L : Ledger) (e : Epoch) : Op → List (Nat × Nat)
  | .send e' p _ _ => if e' = e ∧ p.inFlight = true then L e ++ [(p.pn, w p)] else L e
  | .ack e' ranges _ _ _ _ => if e' = e then (L e).filter fun x => !(ranges.any fun r => decide (r.1 ≤ x.1 ∧ x.1 < r.2)) else L e
  | .discard e' _ _ => if e' = e then [] else L e
  | _ => L e

/-- The packets reported lost are removed. -/
def strike (o : Out) (e : Epoch) (l : List (Nat × Nat)) : List (Nat × Nat) :=
  if o.epoch = e then l.filter fun x => !(o.lost.any fun p => p.1 == x.1) else l

/-- The ledger after some calls. -/
def ledger (w : Pkt → Nat) : Ledger → List (Op × Out) → Ledger
  | L, [] => L
  | L, x :: xs => ledger w (fun e => strike x.2 e (enter w L e x.1)) xs

/-- The weight of some entries. -/
def weight (l : List (Nat × Nat)) : Nat := (l.map Prod.snd).sum

/-- The weight of a ledger. -/
def sum (L : Ledger) : Nat := weight (L .initial) + weight (L .handshake) + weight (L .application)

/-- The size recorded for a packet (lib.rs:5449). -/
def recorded (p : Pkt) : Nat := if p.ackEliciting = true then p.written else 0

/-- The open packets in flight, as entries. -/
def entries (l : List (Nat × Info)) : List (Nat × Nat) := (l.filter fun p => p.2.inFlight).map fun p => (p.1, p.2.size)

theorem wt_entries : ∀ (l : List (Nat × Info)), wt l = weight (entries l)
  | [] => rfl
  | x :: l => by
    have ih := wt_entries l
    rw [wt_cons, ih]
    unfold entries
    rw [List.filter_cons]
    split
    · simp [weight]
    · simp

theorem cnt_entries (l : List (Nat × Info)) : cnt l = (entries l).length := by
  simp [cnt, entries]

theorem entries_append (l m : List (Nat × Info)) : entries (l ++ m) = entries l ++ entries m := by
  simp [entries]

theorem entries_filter (f : Nat → Bool) (l : List (Nat × Info)) :
    entries (l.filter fun x => f x.1) = (entries l).filter fun x => f x.1 := by
  unfold entries
  rw [List.filter_map, List.filter_filter, List.filter_filter]
  congr 1
  apply List.filter_congr
  intro x _
  simp only [Function.comp]
  exact Bool.and_comm _ _

theorem strike_none (e : Epoch) {o : Out} (ho : o.lost = []) (l : List (Nat × Nat)) : strike o e l = l := by
  unfold strike
  split
  · rw [ho, List.filter_eq_self]; intro x _; rfl
  · rfl

theorem covered_eq (rs : List (Nat × Nat)) (n : Nat) : covered rs n = rs.any fun r => decide (r.1 ≤ n ∧ n < r.2) := by
  unfold covered
  congr 1
  funext r
  simp [inR]

/-- The packets in flight follow the ledger in every call that does not fail. -/
theorem step_ledger (en : Env σ) {s : State σ} {o : Op} (h : Inv s) (L : Ledger)
    (hL : ∀ e, entries (s.get e).live = L e) (hf : (step en s o).1.failed = false) (e : Epoch) :
    entries ((step en s o).1.get e).live = strike (step en s o).2 e (enter recorded L e o) := by
  have hlose : ∀ (t : State σ), Inv t → ∀ (e' : Epoch) (now : Nat) (e : Epoch) (out : Out), out.epoch = e' →
      out.lost = (t.detectLost en e' now).1.lost →
      entries ((t.detectLost en e' now).2.get e).live = strike out e (entries (t.get e).live) := by
    intro t ht e' now e out h1 h2
    obtain ⟨d1, d2, -⟩ := detectLost_spec en t e' now
    rw [d2]
    unfold strike
    rw [h1, h2, d1]
    by_cases hee : e = e'
    · subst hee
      rw [if_pos rfl, if_pos rfl, lose_live _ _ _ (ht e)]
      exact entries_filter (fun n => !((Space.lose (State.lossDelay en t) t.thresh.pkt now (t.get e)).1.lost.any fun q => q.1 == n)) _
    · rw [if_neg hee, if_neg (fun h => hee h.symm)]
  by_cases hq : o.quiet = true
  · obtain ⟨q1, q2, q3, q4, q5, q6, q7, q8, q9, q10, q11, q12⟩ := quiet_spec en s o hq
    rw [strike_none e q10]
    have : enter recorded L e o = L e := by cases o <;> first | rfl | exact absurd hq (by simp [Op.quiet])
    rw [this, ← hL e]
    unfold Space.live
    rw [(q1 e).1]
  · cases o with
    | send e' p st now =>
      rw [strike_none e rfl]
      show entries ((s.onSent en e' p st now).get e).live = _
      rw [onSent_get]
      simp only [enter]
      by_cases he : e = e'
      · subst he
        rw [if_pos rfl, onSent_live, entries_append, hL e]
        cases hp : p.inFlight with
        | true =>
          simp only [and_self, if_true]
          congr 1
          simp [entries, Pkt.info, hp, recorded]
        | false => simp [entries, Pkt.info, hp]
      · rw [if_neg he, if_neg (by rintro ⟨h, _⟩; exact he h.symm)]
        exact hL e
    | ack e' rs delay st now skip =>
      have hf' : (s.onAck en e' rs delay st now skip).1.failed = false := hf
      show entries ((s.onAck en e' rs delay st now skip).1.get e).live = strike (s.onAck en e' rs delay st now skip).2 e _
      simp only [enter]
      have hfil : entries (((s.get e').acked skip rs).2.2.live) = (L e').filter (fun x => !covered rs x.1) ∨ ((s.get e').acked skip rs).1 = true := by
        cases hc : ((s.get e').acked skip rs).1 with
        | true => exact Or.inr rfl
        | false =>
          left
          rw [acked_live skip rs (h e') hc, ← hL e']
          exact entries_filter (fun n => !covered rs n) _
      rcases onAck_cases en s e' rs delay st now skip with ⟨_, he⟩ | ⟨hnf, hn, he⟩ | ⟨hnf, last, hl, he⟩
      · rw [he] at hf'; cases hf'
      · rw [he, strike_none e rfl, spurious_get]
        by_cases hee : e = e'
        · subst hee
          rw [if_pos rfl, get_set_same]
          rcases hfil with hfil | hfil
          · rw [hfil]; congr 1; funext x; rw [covered_eq]
          · rw [hfil] at hnf; cases hnf
        · rw [if_neg (fun h => hee h.symm), get_set_other _ _ hee]; exact hL e
      · obtain ⟨t, ht⟩ : ∃ t, t = ackState en s e' rs delay st now skip last := ⟨_, rfl⟩
        obtain ⟨g1, g2, g3, g4, g5, g6, g7, g8, -⟩ := ackTail_spec en s e' rs delay st now skip last ht he
        have hti : Inv t := by rw [ht]; exact ackState_inv en h e' rs delay st now skip last
        rw [g1, hlose t hti e' now e _ g4 g7]
        congr 1
        rw [ht, ackState_get]
        by_cases hee : e = e'
        · subst hee
          rw [if_pos rfl, if_pos rfl]
          rcases hfil with hfil | hfil
          · refine Eq.trans (show _ = entries (((s.get e).acked skip rs).2.2.live) from rfl) (hfil.trans ?_)
            congr 1; funext x; rw [covered_eq]
          · rw [hfil] at hnf; cases hnf
        · rw [if_neg hee, if_neg (fun h => hee h.symm)]; exact hL e
    | timeout st now =>
      show entries ((s.onTimeout en st now).1.get e).live = strike (s.onTimeout en st now).2 e (L e)
      unfold State.onTimeout
      split
      · dsimp only
        rw [setTimer_get, ← hL e]
        exact hlose s h _ now e _ rfl rfl
      · dsimp only
        rw [strike_none e rfl, (onPto_spec en s st now).1, ← hL e]
        split <;> rfl
    | discard e' st now =>
      rw [strike_none e rfl]
      show entries ((s.onDiscard en e' st now).1.get e).live = _
      rw [(onDiscard_spec en s e' st now).1]
      simp only [enter]
      by_cases hee : e = e'
      · rw [if_pos hee, if_pos hee.symm]; rfl
      · rw [if_neg hee, if_neg (fun h => hee h.symm)]; exact hL e
    | pathChange e' now =>
      show entries ((s.detectLost en e' now).2.get e).live = strike (s.onPathChange en e' now).2 e (L e)
      rw [← hL e]
      exact hlose s h e' now e _ rfl rfl
    | _ => exact absurd rfl hq

theorem run_ledger (en : Env σ) : ∀ (os : List Op) (s : State σ) (L : Ledger), Inv s → Ascending os → Below s os →
    (∀ e, entries (s.get e).live = L e) → (run en s os).1.failed = false →
    ∀ e, entries ((run en s os).1.get e).live = ledger recorded L (run en s os).2 e
  | [], _, _, _, _, _, hL, _ => hL
  | o :: os, s, L, hi, ha, hb, hL, hff => by
    have hf := step_facts en hi o hb.fresh
    have h1 : (step en s o).1.failed = false := by
      cases hc : (step en s o).1.failed with
      | false => rfl
      | true =>
        have := (run_facts en os (step en s o).1 hf.inv ha.tail (hb.step en ha hf)).2.2.2 hc
        rw [show (run en s (o :: os)).1.failed = (run en (step en s o).1 os).1.failed from rfl, this] at hff
        exact nomatch hff
    exact run_ledger en os (step en s o).1 _ hf.inv ha.tail (hb.step en ha hf) (step_ledger en hi L hL h1) hff

/-- The empty ledger. -/
def nothing : Ledger := fun _ => []

/-- **C130.** The bytes in flight are the weight of the ledger, with the sizes recorded. -/
theorem bytes_partial (en : Env σ) (t0 r d : Nat) (relaxed : Bool) (c : σ) (os : List Op) (ha : Ascending os)
    (hf : (run en (State.new t0 r d relaxed c) os).1.failed = false) :
    (run en (State.new t0 r d relaxed c) os).1.flight.bytes = sum (ledger recorded nothing (run en (State.new t0 r d relaxed c) os).2) := by
  have h1 := run_facts en os _ (new_inv t0 r d relaxed c) ha (new_below t0 r d relaxed c os)
  have h2 := run_ledger en os _ nothing (new_inv t0 r d relaxed c) ha (new_below t0 r d relaxed c os) (by intro e; cases e <;> rfl) hf
  rw [h1.2.2.1 hf rfl]
  unfold total sum
  rw [wt_entries, wt_entries, wt_entries, h2, h2, h2]

/-- With the sizes as written, when every packet in flight is ack-eliciting. -/
theorem bytes_eliciting_partial (en : Env σ) (t0 r d : Nat) (relaxed : Bool) (c : σ) (os : List Op) (ha : Ascending os)
    (he : ∀ e p st now, Op.send e p st now ∈ os → p.inFlight = true → p.ackEliciting = true)
    (hf : (run en (State.new t0 r d relaxed c) os).1.failed = false) :
    (run en (State.new t0 r d relaxed c) os).1.flight.bytes =
      sum (ledger Pkt.written nothing (run en (State.new t0 r d relaxed c) os).2) := by
  rw [bytes_partial en t0 r d relaxed c os ha hf]
  have key : ∀ (os : List Op) (s : State σ) (L : Ledger),
      (∀ e p st now, Op.send e p st now ∈ os → p.inFlight = true → p.ackEliciting = true) →
      ledger recorded L (run en s os).2 = ledger Pkt.written L (run en s os).2 := by
    intro os
    induction os with
    | nil => intro s L _; rfl
    | cons o os ih =>
      intro s L h
      show ledger recorded (fun e => strike (step en s o).2 e (enter recorded L e o)) (run en (step en s o).1 os).2 =
        ledger Pkt.written (fun e => strike (step en s o).2 e (enter Pkt.written L e o)) (run en (step en s o).1 os).2
      have : ∀ e, enter recorded L e o = enter Pkt.written L e o := by
        intro e
        cases o with
        | send e' p st now =>
          simp only [enter]
          split
          · next hp =>
            have := h e' p st now (List.mem_cons_self ..) hp.2
            simp [recorded, this]
          · rfl
        | _ => rfl
      simp only [this]
      exact ih _ _ (fun e p st now hm => h e p st now (List.mem_cons_of_mem _ hm))
  rw [key os _ nothing he]

/-- **C130.** The counters of packets in flight are exact in every history, also after the
peer acknowledged a packet number that was skipped. -/
theorem count_exact (en : Env σ) (t0 r d : Nat) (relaxed : Bool) (c : σ) (os : List Op) (ha : Ascending os) (e : Epoch) :
    ((run en (State.new t0 r d relaxed c) os).1.get e).inFlightCount =
      (((run en (State.new t0 r d relaxed c) os).1.get e).live.filter fun p => p.2.inFlight).length ∧
    0 ≤ ((run en (State.new t0 r d relaxed c) os).1.get e).inFlightCount := by
  have h1 := (run_facts en os _ (new_inv t0 r d relaxed c) ha (new_below t0 r d relaxed c os)).1 e
  rw [h1.count]
  exact ⟨rfl, Int.natCast_nonneg _⟩

/-- The counters agree with the ledger. -/
theorem count_ledger (en : Env σ) (t0 r d : Nat) (relaxed : Bool) (c : σ) (os : List Op) (ha : Ascending os)
    (hf : (run en (State.new t0 r d relaxed c) os).1.failed = false) (e : Epoch) :
    ((run en (State.new t0 r d relaxed c) os).1.get e).inFlightCount =
      (ledger recorded nothing (run en (State.new t0 r d relaxed c) os).2 e).length := by
  have h1 := (run_facts en os _ (new_inv t0 r d relaxed c) ha (new_below t0 r d relaxed c os)).1 e
  have h2 := run_ledger en os _ nothing (new_inv t0 r d relaxed c) ha (new_below t0 r d relaxed c os) (by intro e; cases e <;> rfl) hf e
  rw [h1.count, cnt_entries, h2]

/-! ### Witnesses -/

/-- A controller that does nothing; packets get the time of the call. -/
def quietEnv : Env Unit := ⟨⟨fun _ now => now, fun _ _ _ => ()⟩, fun k d => d * k / 8, fun x => x / 4, fun x => x / 2⟩

/-- A recovery at its start. -/
def s0 : State Unit := State.new 0 100000000 25000000 false ()

def done : Status := ⟨true, true, true⟩
/-- A packet with data. -/
def data (pn size : Nat) : Pkt := ⟨pn, [.other pn], size, true, true, true, false⟩
/-- A packet with an ACK frame and padding. -/
def padded (pn size : Nat) : Pkt := ⟨pn, [], size, false, true, false, false⟩

/-- With the weight on the wire the claim is false. -/
theorem bytes_false : ∃ os : List Op, Ascending os ∧ (run quietEnv s0 os).1.failed = false ∧
    (run quietEnv s0 os).1.flight.bytes ≠ sum (ledger Pkt.written nothing (run quietEnv s0 os).2) :=
  ⟨[.send .initial (padded 0 1200) done 5], by unfold Ascending; decide +kernel, by decide +kernel, by decide +kernel⟩

/-- After an ACK of a skipped packet number the packets below it are acknowledged, but
stay in flight. -/
theorem after_skip_false : ∃ os : List Op, Ascending os ∧
    (run quietEnv s0 os).1.flight.bytes = 1200 ∧ sum (ledger recorded nothing (run quietEnv s0 os).2) = 0 ∧
    total (run quietEnv s0 os).1 = 0 :=
  ⟨[.send .application (data 0 1200) done 5, .ack .application [(0, 1), (2, 3)] 0 done 100 (some 2)],
    by unfold Ascending; decide +kernel, by decide +kernel, by decide +kernel, by decide +kernel⟩

/-- Four packets; an ACK of the last declares the first lost by its distance; the ledger
and the bytes in flight agree. -/
example :
    let os : List Op := [.send .application (data 0 1000) done 5, .send .application (data 1 1100) done 6,
      .send .application (data 2 1200) done 7, .send .application (data 3 1300) done 8,
      .ack .application [(3, 4)] 0 done 100 none]
    Ascending os ∧ (run quietEnv s0 os).1.flight.bytes = 2300 ∧
      sum (ledger Pkt.written nothing (run quietEnv s0 os).2) = 2300 ∧
      ((run quietEnv s0 os).2.map fun x => x.2.lost.map Prod.fst) = [[], [], [], [], [0]] := by
  refine ⟨?_, ?_, ?_, ?_⟩
  · unfold Ascending; decide +kernel
  · decide +kernel
  · decide +kernel
  · decide +kernel

end Verif.Props.C130
