import Verif.GRec.Facts

/-! Histories of calls. -/

namespace Verif.GRec

open Verif.Rec (Epoch Status Rtt Bif hitsSkip lastOf)

variable {σ : Type}

/-- What is recorded of the packets sent in a space. -/
def sentIn (e : Epoch) (tr : List (Op × Out)) : List (Nat × Info) := tr.flatMap fun x => x.2.at e x.2.sent

/-- The packets of a space acknowledged. -/
def ackedIn (e : Epoch) (tr : List (Op × Out)) : List (Nat × Info) := tr.flatMap fun x => x.2.at e x.2.acked

/-- The packets of a space declared lost. -/
def lostIn (e : Epoch) (tr : List (Op × Out)) : List (Nat × Info) := tr.flatMap fun x => x.2.at e x.2.lost

/-- The packets forgotten with their space. -/
def droppedIn (e : Epoch) (tr : List (Op × Out)) : List (Nat × Info) := tr.flatMap fun x => x.2.at e x.2.dropped

/-- The numbers of the packets sent, in order. -/
def numbers : List Op → List Nat
  | [] => []
  | .send _ p _ _ :: os => p.pn :: numbers os
  | _ :: os => numbers os

/-- One counter numbers the packets of all spaces (lib.rs `next_pkt_num`). -/
def Ascending (os : List Op) : Prop := (numbers os).Pairwise (· < ·)

/-- The packets known have numbers below those still to be sent. -/
def Below (s : State σ) (os : List Op) : Prop := ∀ e, ∀ q ∈ (s.get e).sent, ∀ n ∈ numbers os, q.pn < n

theorem step_sent (en : Env σ) (s : State σ) (o : Op) (e : Epoch) :
    ∀ x ∈ ((step en s o).2.at e (step en s o).2.sent), ∃ p st now, o = .send e p st now ∧ x = (p.pn, p.info (en.cc.sendTime s.cc now)) := by
  intro x hx
  have hcases : (step en s o).2.sent = [] ∨ ∃ e' p st now, o = .send e' p st now := by
    cases o with
    | send e' p st now => exact Or.inr ⟨e', p, st, now, rfl⟩
    | ack e' rs delay st now skip =>
      left
      show (s.onAck en e' rs delay st now skip).2.sent = []
      rcases onAck_cases en s e' rs delay st now skip with ⟨_, he⟩ | ⟨_, _, he⟩ | ⟨_, last, _, he⟩
      · rw [he]
      · rw [he]
      · rw [he]; rfl
    | timeout st now =>
      left
      show (s.onTimeout en st now).2.sent = []
      unfold State.onTimeout; split <;> rfl
    | _ => left; rfl
  rcases hcases with h | ⟨e', p, st, now, rfl⟩
  · rw [h, Out.at_nil] at hx; exact nomatch hx
  · have hx' : x ∈ (if e' = e then [(p.pn, p.info (en.cc.sendTime s.cc now))] else []) := hx
    split at hx'
    · next h => subst h; exact ⟨p, st, now, rfl, List.mem_singleton.1 hx'⟩
    · exact nomatch hx'

theorem numbers_cons (o : Op) (os : List Op) : ∀ n ∈ numbers os, n ∈ numbers (o :: os) := by
  intro n hn
  cases o <;> first | exact hn | exact List.mem_cons_of_mem _ hn

theorem Ascending.tail {o : Op} {os : List Op} (h : Ascending (o :: os)) : Ascending os := by
  unfold Ascending at *
  cases o <;> first | exact h | exact (List.pairwise_cons.1 h).2

theorem Below.fresh {s : State σ} {o : Op} {os : List Op} (h : Below s (o :: os)) : Fresh s o := by
  cases o with
  | send e p st now => exact fun q hq => h e q hq p.pn (List.mem_cons_self ..)
  | _ => trivial

theorem Below.step (en : Env σ) {s : State σ} {o : Op} {os : List Op} (ha : Ascending (o :: os)) (h : Below s (o :: os))
    (hf : Facts s (step en s o).1 (step en s o).2) : Below (step en s o).1 os := by
  intro e q hq n hn
  rcases hf.pns e q hq with hp | hp
  · obtain ⟨q', hq', he⟩ := List.mem_map.1 hp
    rw [← he]
    exact h e q' hq' n (numbers_cons o os n hn)
  · obtain ⟨x, hx, he⟩ := List.mem_map.1 hp
    obtain ⟨p, st, now, rfl, rfl⟩ := step_sent en s o e x hx
    rw [← he]
    exact (List.pairwise_cons.1 ha).1 n hn

/-- A whole history. -/
theorem run_facts (en : Env σ) : ∀ (os : List Op) (s : State σ), Inv s → Ascending os → Below s os →
    Inv (run en s os).1 ∧
    (∀ e, ((s.get e).live ++ sentIn e (run en s os).2).Perm
      (((run en s os).1.get e).live ++ (ackedIn e (run en s os).2 ++ (lostIn e (run en s os).2 ++ droppedIn e (run en s os).2)))) ∧
    ((run en s os).1.failed = false → s.flight.bytes = total s → (run en s os).1.flight.bytes = total (run en s os).1) ∧
    (s.failed = true → (run en s os).1.failed = true)
  | [], s, hi, _, _ => by
    refine ⟨hi, fun e => ?_, fun _ h => h, fun h => h⟩
    simp [run, sentIn, ackedIn, lostIn, droppedIn]
  | o :: os, s, hi, ha, hb => by
    have hf := step_facts en hi o hb.fresh
    obtain ⟨r1, r2, r3, r4⟩ := run_facts en os (step en s o).1 hf.inv ha.tail (hb.step en ha hf)
    refine ⟨r1, ?_, ?_, fun h => r4 (hf.failed h)⟩
    · intro e
      have h1 := hf.moved e
      have h2 := r2 e
      show (_ ++ ((step en s o).2.at e (step en s o).2.sent ++ sentIn e (run en (step en s o).1 os).2)).Perm
        (((run en (step en s o).1 os).1.get e).live ++
          (((step en s o).2.at e (step en s o).2.acked ++ ackedIn e (run en (step en s o).1 os).2) ++
          (((step en s o).2.at e (step en s o).2.lost ++ lostIn e (run en (step en s o).1 os).2) ++
          ((step en s o).2.at e (step en s o).2.dropped ++ droppedIn e (run en (step en s o).1 os).2))))
      generalize (step en s o).2.at e (step en s o).2.sent = a1 at *
      generalize (step en s o).2.at e (step en s o).2.acked = a2 at *
      generalize (step en s o).2.at e (step en s o).2.lost = a3 at *
      generalize (step en s o).2.at e (step en s o).2.dropped = a4 at *
      generalize sentIn e (run en (step en s o).1 os).2 = b1 at *
      generalize ackedIn e (run en (step en s o).1 os).2 = b2 at *
      generalize lostIn e (run en (step en s o).1 os).2 = b3 at *
      generalize droppedIn e (run en (step en s o).1 os).2 = b4 at *
      generalize ((run en (step en s o).1 os).1.get e).live = L' at *
      generalize ((step en s o).1.get e).live = L1 at *
      generalize (s.get e).live = L0 at *
      rw [List.perm_iff_count] at *
      intro x
      have c1 := h1 x
      have c2 := h2 x
      simp only [List.count_append] at *
      omega
    · intro hff h0
      have h1 : (step en s o).1.failed = false := by
        cases hc : (step en s o).1.failed with
        | false => rfl
        | true =>
          have := r4 hc
          rw [show (run en s (o :: os)).1.failed = (run en (step en s o).1 os).1.failed from rfl, this] at hff
          exact nomatch hff
      exact r3 hff (hf.bytes h1 h0)

theorem new_inv (t0 r d : Nat) (b : Bool) (c : σ) : Inv (State.new t0 r d b c) := by
  intro e; cases e <;> exact ⟨List.Pairwise.nil, rfl⟩

theorem new_below (t0 r d : Nat) (b : Bool) (c : σ) (os : List Op) : Below (State.new t0 r d b c) os := by
  intro e q hq; cases e <;> exact nomatch hq

theorem run_append (en : Env σ) : ∀ (as bs : List Op) (s : State σ),
    (run en s (as ++ bs)).1 = (run en (run en s as).1 bs).1 ∧
    (run en s (as ++ bs)).2 = (run en s as).2 ++ (run en (run en s as).1 bs).2
  | [], _, _ => ⟨rfl, rfl⟩
  | a :: as, bs, s => by
    obtain ⟨h1, h2⟩ := run_append en as bs (step en s a).1
    refine ⟨h1, ?_⟩
    show (a, (step en s a).2) :: (run en (step en s a).1 (as ++ bs)).2 = _
    rw [h2]; rfl

theorem ascending_append {as bs : List Op} (h : Ascending (as ++ bs)) : Ascending as := by
  induction as with
  | nil => exact List.Pairwise.nil
  | cons o as ih =>
    have h1 := ih (Ascending.tail h)
    cases o with
    | send e p st now =>
      refine List.pairwise_cons.2 ⟨?_, h1⟩
      intro n hn
      refine (List.pairwise_cons.1 h).1 n ?_
      clear h ih h1
      show n ∈ numbers (as ++ bs)
      induction as with
      | nil => exact nomatch hn
      | cons o as ih =>
        cases o with
        | send e' p' st' now' =>
          rcases List.mem_cons.1 hn with hn | hn
          · subst hn; exact List.mem_cons_self ..
          · exact List.mem_cons_of_mem _ (ih hn)
        | _ => exact ih hn
    | _ => exact h1

theorem below_run (en : Env σ) : ∀ (os bs : List Op) (s : State σ), Inv s → Ascending (os ++ bs) → Below s (os ++ bs) → Below (run en s os).1 bs
  | [], _, _, _, _, h => h
  | o :: os, bs, s, hi, ha, hb => by
    have hf := step_facts en hi o hb.fresh
    exact below_run en os bs (step en s o).1 hf.inv ha.tail (hb.step en ha hf)

/-! ### Which packets an ACK and a loss detection take out -/

/-- Whether a packet number is acknowledged by some ranges. -/
def covered (rs : List (Nat × Nat)) (n : Nat) : Bool := rs.any fun r => inR r.1 r.2 n

theorem ackRanges_open (largest : Nat) (skip : Option Nat) : ∀ (rs : List (Nat × Nat)) (a : AckAcc) (l : List Pk), Sorted l →
    (ackRanges largest skip rs a l).1 = false →
    openOf (ackRanges largest skip rs a l).2.2 = (openOf l).filter fun x => !covered rs x.1
  | [], a, l, _, _ => by
    rw [List.filter_eq_self.2 (by intro x _; rfl)]; rfl
  | r :: rs, a, l, h, hf => by
    unfold ackRanges at hf ⊢
    by_cases hs : hitsSkip skip r.1 r.2 = true
    · rw [if_pos hs] at hf; exact nomatch hf
    · rw [if_neg hs] at hf ⊢
      obtain ⟨i1, i2, i3, i4⟩ := ackRange_spec largest r.1 r.2 l a h
      rw [ackRanges_open largest skip rs _ _ (h.of_map i4) hf, i2, List.filter_filter]
      congr 1
      funext x
      simp only [covered, List.any_cons]
      cases inR r.1 r.2 x.1 <;> simp

/-- The packets left open by an ACK. -/
theorem acked_live (skip : Option Nat) (rs : List (Nat × Nat)) {x : Space} (h : SpaceInv x) (hf : (x.acked skip rs).1 = false) :
    (x.acked skip rs).2.2.live = x.live.filter fun p => !covered rs p.1 := by
  unfold Space.acked at hf ⊢
  dsimp only at hf ⊢
  have hk := ackRanges_open (Nat.max (x.largestAcked.getD 0) (lastOf rs)) skip rs ⟨x.inFlightCount, 0, [], none, false, [], x.ackedFrames⟩
    x.sent h.sorted
  generalize ackRanges (Nat.max (x.largestAcked.getD 0) (lastOf rs)) skip rs
    ⟨x.inFlightCount, 0, [], none, false, [], x.ackedFrames⟩ x.sent = r at *
  by_cases hr : r.1 = true
  · rw [if_pos hr] at hf; exact nomatch hf
  · rw [if_neg hr]
    show openOf (drain r.2.2) = _
    rw [openOf_drain]
    exact hk (by simpa using hr)

/-- The second part of an ordered list is what is not in the first. -/
theorem split_filter {A B : List (Nat × Info)} (h : (A ++ B).Pairwise fun a b => a.1 < b.1) :
    B = (A ++ B).filter fun x => !(A.any fun y => y.1 == x.1) := by
  have hp := List.pairwise_append.1 h
  rw [List.filter_append]
  have h1 : A.filter (fun x => !(A.any fun y => y.1 == x.1)) = [] := by
    rw [List.filter_eq_nil_iff]
    intro x hx
    simp only [Bool.not_eq_true', Bool.not_eq_false, List.any_eq_true]
    exact ⟨x, hx, by simp⟩
  have h2 : B.filter (fun x => !(A.any fun y => y.1 == x.1)) = B := by
    rw [List.filter_eq_self]
    intro x hx
    simp only [Bool.not_eq_true', List.any_eq_false]
    intro y hy
    have := hp.2.2 y hy x hx
    simp only [beq_iff_eq]; omega
  rw [h1, h2]; rfl

theorem live_sorted {x : Space} (h : SpaceInv x) : x.live.Pairwise fun a b => a.1 < b.1 := openOf_sorted h.sorted

/-- The packets left open by a loss detection. -/
theorem lose_live (delay : Nat) (thresh : Option Nat) (now : Nat) {x : Space} (h : SpaceInv x) :
    (x.lose delay thresh now).2.live = x.live.filter fun p => !((x.lose delay thresh now).1.lost.any fun q => q.1 == p.1) := by
  have hl := (lose_spec delay thresh now h).2.1
  have hs := live_sorted h
  rw [hl] at hs ⊢
  exact split_filter hs

end Verif.GRec
