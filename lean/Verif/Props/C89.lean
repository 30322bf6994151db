import Verif.Packet.PnLemmas
import Verif.Props.C46

/-!
C89. A peer that acknowledges packets it cannot have received is found out: an ACK frame
covering a packet number that was never sent is refused.

The claim is false. A skipped number is watched only until a larger number is
acknowledged. A peer that acknowledges only the latest packet it received, and everything
below it in a second frame, never trips the check, whatever numbers were skipped
(`evaded`, `refused_false`): it can so acknowledge all packets lost on the way. Also the
check of the largest number is per packet number space, but the numbers are not: an ACK in
one space may cover numbers used in another.

What holds: an ACK frame covering the number being watched is refused (C74), here also for
loss recovery itself: it fails exactly for such frames (`recovery_refuses`).
-/

namespace Verif.Props.C89

open Verif Verif.Packet

/-- For every state in which a number `k` is watched and a later packet `n` of a space was
sent (and is on record): after an ACK of `n` alone, every ACK frame within what was sent in
the space is accepted, also if it covers `k`. -/
theorem evaded (s : PnState) (epoch path k n : Nat) (ranges : List (Nat × Nat)) (record : List Nat) (a l : Nat)
    (hk : s.skip = some k) (hn : k < n) (hs : (epoch, n) ∈ s.sent) (ht : s.largestTx epoch = some l) (hl : n ≤ l)
    (hr : ranges.getLast? = some (a, l + 1)) :
    ∃ s1 s2, s.ack epoch [(n, n + 1)] [(path, [n])] = .ok s1 ∧ s1.ack epoch ranges [(path, record)] = .ok s2 := by
  have h1 : ∃ s1, s.ack epoch [(n, n + 1)] [(path, [n])] = .ok s1 ∧ s1.skip = none ∧ s1.largestTx = s.largestTx := by
    unfold PnState.ack PnState.ackPath
    rw [show lastOf [(n, n + 1)] = some n from rfl]
    have hb : s.beyond epoch n = false := by
      unfold PnState.beyond; rw [ht]; simp; omega
    have hc : s.coversSkip [(n, n + 1)] = false := by
      unfold PnState.coversSkip covers; rw [hk]; simp; omega
    have hf : ([n].filter fun pn => covers [(n, n + 1)] pn && s.sent.contains (epoch, pn)) = [n] := by
      have : s.sent.contains (epoch, n) = true := by simpa using hs
      have h2 : covers [(n, n + 1)] n = true := by simp [covers]
      simp [h2, hs]
    simp only [hb, hc, hf]
    rw [if_neg (by simp), if_neg (by simp)]
    unfold PnState.record
    simp only [List.getLast?_singleton]
    unfold PnState.validate
    simp only [hk, and_self, if_true]
    have : max ((s.acked path epoch).getD 0) n > k := by omega
    rw [if_pos this]
    unfold PnState.setSkip
    simp only [Option.isSome_none, Bool.false_and]
    rw [if_neg (by simp)]
    exact ⟨_, rfl, rfl, rfl⟩
  obtain ⟨s1, e1, k1, t1⟩ := h1
  have h2 : ∃ s2, s1.ack epoch ranges [(path, record)] = .ok s2 := by
    unfold PnState.ack PnState.ackPath
    have hlast : lastOf ranges = some l := by unfold lastOf; rw [hr]; simp
    rw [hlast]
    have hb : s1.beyond epoch l = false := by unfold PnState.beyond; rw [t1, ht]; simp
    have hc : s1.coversSkip ranges = false := by unfold PnState.coversSkip; rw [k1]; rfl
    simp only [hb, hc]
    rw [if_neg (by simp), if_neg (by simp)]
    have hv : ∀ (f : List Nat), ∃ s2, (s1.record epoch path f).validate epoch path = .ok s2 := by
      intro f
      have hk' : (s1.record epoch path f).skip = none := by
        unfold PnState.record
        split <;> exact k1
      unfold PnState.validate
      rw [hk']
      split
      · rename_i heq; cases heq
      · exact ⟨_, rfl⟩
    obtain ⟨s2, e2⟩ := hv (record.filter fun pn => covers ranges pn && s1.sent.contains (epoch, pn))
    rw [e2]
    exact ⟨s2, rfl⟩
  obtain ⟨s2, e2⟩ := h2
  exact ⟨s1, s2, e1, e2⟩

def snd : PnOp := .send 2 1200 1200 true (fun _ => 0) true

/-- The claim is false: 22 packets are sent with number 21 skipped; the peer acknowledges 22
and then everything up to 22, and is believed. -/
theorem refused_false : ∃ (ops : List PnOp) (s s' : PnState), PnState.run {} ops = some s ∧ (∀ e, (e, 21) ∉ s.sent) ∧
    s.ack 2 [(0, 23)] [(0, List.range 23)] = .ok s' := by
  obtain ⟨s, h⟩ : ∃ s, PnState.run {} (List.replicate 22 snd ++ [.ack 2 [(22, 23)] [(0, List.range 23)]]) = some s :=
    ⟨_, rfl⟩
  have hsent : s.sent = ((List.range 21).map fun n => (2, n)).reverse.cons (2, 22) := by
    have : (PnState.run {} (List.replicate 22 snd ++ [.ack 2 [(22, 23)] [(0, List.range 23)]])).map PnState.sent =
        some (((List.range 21).map fun n => (2, n)).reverse.cons (2, 22)) := by decide +kernel
    rw [h] at this
    simpa using this
  have hacc : (s.ack 2 [(0, 23)] [(0, List.range 23)]).toOption.isSome = true := by
    have : (PnState.run {} (List.replicate 22 snd ++ [.ack 2 [(22, 23)] [(0, List.range 23)]])).map
        (fun s => (s.ack 2 [(0, 23)] [(0, List.range 23)]).toOption.isSome) = some true := by decide +kernel
    rw [h] at this
    simpa using this
  cases hx : s.ack 2 [(0, 23)] [(0, List.range 23)] with
  | error e => rw [hx] at hacc; cases hacc
  | ok s' =>
    refine ⟨_, s, s', h, ?_, hx⟩
    intro e he
    rw [hsent] at he
    simp at he

/-- Numbers of another space: packet 0 was sent in space 0 only, packet 1 in space 2; an
ACK of both in space 2 is accepted. -/
example : ((PnState.run {} [.send 0 1200 1200 false (fun _ => 0) true, .send 2 1200 1200 false (fun _ => 0) true]).map
    fun s => (s.ack 2 [(0, 2)] [(0, [0, 1])]).toOption.isSome) = some true := by decide +kernel

/-! ### Loss recovery -/

open Verif.Rec in
theorem ackRanges_fails (now largest : Nat) (k : Nat) : ∀ (rs : List (Nat × Nat)) (a : AckAcc) (l : List Sent),
    (ackRanges now largest (some k) rs a l).1 = true ↔ ∃ r ∈ rs, r.1 ≤ k ∧ k < r.2
  | [], _, _ => by simp [ackRanges]
  | r :: rs, a, l => by
    unfold ackRanges
    split
    · rename_i h
      simp only [hitsSkip, decide_eq_true_eq] at h
      exact ⟨fun _ => ⟨r, List.mem_cons_self, h⟩, fun _ => rfl⟩
    · rename_i h
      simp only [hitsSkip, decide_eq_true_eq] at h
      rw [ackRanges_fails now largest k rs]
      constructor
      · rintro ⟨x, hx, h'⟩; exact ⟨x, List.mem_cons_of_mem _ hx, h'⟩
      · rintro ⟨x, hx, h'⟩
        rcases List.mem_cons.1 hx with rfl | hx
        · exact absurd h' h
        · exact ⟨x, hx, h'⟩

open Verif.Rec in
theorem ackRanges_none (now largest : Nat) : ∀ (rs : List (Nat × Nat)) (a : AckAcc) (l : List Sent),
    (ackRanges now largest none rs a l).1 = false
  | [], _, _ => rfl
  | r :: rs, a, l => by
    unfold ackRanges
    rw [if_neg (by simp [hitsSkip])]
    exact ackRanges_none now largest rs _ _

open Verif.Rec in
/-- Loss recovery fails on an ACK exactly if a range covers the number watched. -/
theorem recovery_refuses {σ : Type} (en : Env σ) (s : State σ) (e : Epoch) (ranges : List (Nat × Nat)) (delay : Nat) (st : Status) (now : Nat)
    (skip : Option Nat) (hs : s.failed = false) :
    (step en s (.ack e ranges delay st now skip)).1.failed = true ↔ ∃ k, skip = some k ∧ ∃ r ∈ ranges, r.1 ≤ k ∧ k < r.2 := by
  have hacc : ((s.get e).acked now s.rtt.smoothed skip ranges).1 = true ↔ ∃ k, skip = some k ∧ ∃ r ∈ ranges, r.1 ≤ k ∧ k < r.2 := by
    have h1 : ((s.get e).acked now s.rtt.smoothed skip ranges).1 = (ackRanges now (Nat.max ((s.get e).largestAcked.getD 0) (Rec.lastOf ranges)) skip ranges
        ⟨(s.get e).inFlightCount, 0, 0, none, false, false, [], (s.get e).ackedFrames⟩ (s.get e).sent).1 := by
      unfold Space.acked
      dsimp only
      split
      · rename_i h; rw [h]
      · rename_i h; simpa using h
    rw [h1]
    cases skip with
    | none => rw [ackRanges_none]; simp
    | some k => rw [ackRanges_fails]; simp
  rw [← hacc]
  show (s.onAck en e ranges delay st now skip).1.failed = true ↔ _
  rcases onAck_cases en s e ranges delay st now skip with ⟨h, he⟩ | ⟨hnf, hno, he⟩ | ⟨hnf, last, hl, he⟩
  · rw [he, h]
  · rw [he, hnf]
    have : ((s.set e ((s.get e).acked now s.rtt.smoothed skip ranges).2.2).spurious en ((s.get e).acked now s.rtt.smoothed skip ranges).2.1).failed = false := by
      cases e <;> exact hs
    simp [this]
  · rw [he, hnf, ackTail_failed]
    have : ((s.set e ((s.get e).acked now s.rtt.smoothed skip ranges).2.2).spurious en ((s.get e).acked now s.rtt.smoothed skip ranges).2.1).failed = false := by
      cases e <;> exact hs
    simp [this]

end Verif.Props.C89
