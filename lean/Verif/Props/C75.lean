import Verif.Packet.PnLemmas

/-!
# C75: Acknowledging packet numbers beyond what was sent is a connection error
-/

namespace Verif.C75
open Verif Verif.Packet

/-- Once a packet has been sent in a packet number space, an ACK frame there that goes
beyond the largest number sent in that space is refused. (Missing for the full claim: spaces in
which nothing was sent, see `nothing_sent`.) -/
theorem beyond_refused_partial (ops : List PnOp) (s : PnState) (hok : ∀ op ∈ ops, op.Ok) (hs : PnState.run {} ops = some s)
    (epoch : Nat) (hsent : ∃ pn, (epoch, pn) ∈ s.sent)
    (ranges : List (Nat × Nat)) (paths : List (Nat × List Nat)) (hp : paths ≠ []) (largest a : Nat)
    (hlast : ranges.getLast? = some (a, largest + 1))
    (hbeyond : ∀ pn, (epoch, pn) ∈ s.sent → pn < largest) :
    s.ack epoch ranges paths = .error .invalidAckRange := by
  obtain ⟨s', e, hi, _⟩ := run_inv ops hok {} PnInv.init
  rw [hs] at e
  cases e
  have hl : lastOf ranges = some largest := by
    unfold lastOf
    rw [hlast]; simp
  match paths, hp with
  | (p, record) :: l, _ =>
    unfold PnState.ack PnState.ackPath
    rw [hl]
    have : s.beyond epoch largest = true := by
      unfold PnState.beyond
      cases hlt : s.largestTx epoch with
      | none =>
        obtain ⟨pn, hpn⟩ := hsent
        exact absurd rfl (hi.nothing epoch hlt _ hpn)
      | some m =>
        have := hbeyond m (hi.largest epoch m hlt).1
        simpa using this
    simp [this]

/-- An ACK frame that stays within the numbers sent and avoids the skipped number is
accepted. -/
theorem within_accepted (ops : List PnOp) (s : PnState) (hok : ∀ op ∈ ops, op.Ok) (hs : PnState.run {} ops = some s)
    (epoch : Nat) (ranges : List (Nat × Nat)) (path : Nat) (record : List Nat) (largest a : Nat)
    (hlast : ranges.getLast? = some (a, largest + 1)) (hsent : ∃ pn, (epoch, pn) ∈ s.sent ∧ largest ≤ pn)
    (hskip : ∀ k, s.skip = some k → ∀ r ∈ ranges, ¬(r.1 ≤ k ∧ k < r.2)) :
    ∃ s', s.ack epoch ranges [(path, record)] = .ok s' := by
  obtain ⟨s', e, hi, _⟩ := run_inv ops hok {} PnInv.init
  rw [hs] at e
  cases e
  have hl : lastOf ranges = some largest := by unfold lastOf; rw [hlast]; simp
  have hne : ranges ≠ [] := by intro h; rw [h] at hlast; cases hlast
  have hnp := (ack_spec epoch ranges hne [(path, record)] s hi).1
  have h1 : s.beyond epoch largest = false := by
    unfold PnState.beyond
    cases hlt : s.largestTx epoch with
    | none => rfl
    | some m =>
      obtain ⟨pn, h1, h2⟩ := hsent
      have := (hi.largest epoch m hlt).2 _ h1 rfl
      simp only [Option.any_some, decide_eq_false_iff_not]
      simp only at this
      omega
  have h2 : s.coversSkip ranges = false := by
    unfold PnState.coversSkip
    cases hk : s.skip with
    | none => rfl
    | some k =>
      simp only [Option.any_some]
      unfold covers
      rw [List.any_eq_false]
      intro r hr
      have := hskip k hk r hr
      simpa using this
  cases hc : s.ack epoch ranges [(path, record)] with
  | ok s' => exact ⟨s', rfl⟩
  | error er =>
    exfalso
    rw [hc] at hnp
    unfold PnState.ack PnState.ackPath at hc
    rw [hl] at hc
    simp only [h1, h2] at hc
    rw [if_neg (by simp), if_neg (by simp)] at hc
    unfold PnState.validate at hc
    split at hc
    · next e2 he =>
      split at he
      · split at he
        · split at he
          · cases he; cases hc; exact hnp rfl
          · cases he
        · cases he
      · cases he
    · unfold PnState.ack at hc; cases hc

/-- The full claim is false: in a space in which nothing was sent, an ACK frame for any
number is accepted. -/
theorem nothing_sent (epoch n : Nat) (paths : List (Nat × List Nat)) :
    ∃ s', PnState.ack {} epoch [(n, n + 1)] paths = .ok s' := by
  have : ∀ paths : List (Nat × List Nat), PnState.ack {} epoch [(n, n + 1)] paths = .ok {} := by
    intro paths
    induction paths with
    | nil => rfl
    | cons x l ih =>
      have h1 : PnState.ackPath {} epoch [(n, n + 1)] x.1 x.2 = .ok {} := by
        unfold PnState.ackPath
        have h2 : PnState.beyond {} epoch n = false := rfl
        have h3 : PnState.coversSkip {} [(n, n + 1)] = false := rfl
        have h4 : lastOf [(n, n + 1)] = some n := rfl
        rw [h4]
        simp only [h2, h3]
        rw [if_neg (by simp), if_neg (by simp)]
        have h5 : (x.2.filter fun pn => covers [(n, n + 1)] pn && ([] : List (Nat × Nat)).contains (epoch, pn)) = [] := by
          simp
        rw [h5]
        rfl
      unfold PnState.ack
      rw [h1]
      exact ih
  exact ⟨_, this paths⟩

/-! ### Concrete cases -/
def snd : PnOp := .send 2 1200 1200 true (fun _ => 0) true
example : ((PnState.run {} [snd, snd]).map fun s => (s.ack 2 [(0, 3)] [(0, [0, 1])]).toOption.isSome) = some false := by
  decide +kernel
example : ((PnState.run {} [snd, snd]).map fun s => (s.ack 2 [(0, 2)] [(0, [0, 1])]).toOption.isSome) = some true := by
  decide +kernel

end Verif.C75
