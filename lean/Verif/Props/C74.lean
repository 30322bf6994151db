import Verif.Packet.PnLemmas

/-!
# C74: An acknowledgement of a skipped packet number is always detected
-/

namespace Verif.C74
open Verif Verif.Packet

/-- A run from a new connection. -/
def Reaches (ops : List PnOp) (s : PnState) : Prop := (∀ op ∈ ops, op.Ok) ∧ PnState.run {} ops = some s

theorem Reaches.inv {ops : List PnOp} {s : PnState} (h : Reaches ops s) : PnInv s := by
  obtain ⟨s', e, hi, _⟩ := run_inv ops h.1 {} PnInv.init
  rw [h.2] at e
  cases e
  exact hi

/-- No packet ever carries a skipped number, however the connection goes on. -/
theorem never_sent (ops more : List PnOp) (s s' : PnState) (k : Nat) (h : Reaches ops s) (hk : s.skip = some k)
    (hmore : ∀ op ∈ more, op.Ok) (hs' : s.run more = some s') : ∀ x ∈ s'.sent, x.2 ≠ k := by
  have hi := h.inv
  obtain ⟨h1, h2⟩ := hi.skip k hk
  obtain ⟨s2, e, _, _, l, hl, hb⟩ := run_inv more hmore s hi
  rw [hs'] at e
  cases e
  intro x hx
  rw [hl] at hx
  rcases List.mem_append.mp hx with hx | hx
  · have := hb x hx; omega
  · exact h2 x hx

/-- An ACK frame that covers the skipped number is refused, in every epoch. -/
theorem detected (ops : List PnOp) (s : PnState) (k : Nat) (h : Reaches ops s) (hk : s.skip = some k)
    (epoch : Nat) (ranges : List (Nat × Nat)) (paths : List (Nat × List Nat)) (hp : paths ≠ [])
    (hcov : ∃ r ∈ ranges, r.1 ≤ k ∧ k < r.2) :
    s.ack epoch ranges paths = .error .invalidAckRange ∨ s.ack epoch ranges paths = .error .optimisticAck := by
  obtain ⟨r, hr, h1, h2⟩ := hcov
  have hne : ranges ≠ [] := by intro h0; rw [h0] at hr; cases hr
  obtain ⟨hnp, hsp⟩ := ack_spec epoch ranges hne paths s h.inv
  cases hc : s.ack epoch ranges paths with
  | error e =>
    cases e with
    | invalidAckRange => exact .inl rfl
    | optimisticAck => exact .inr rfl
    | panic => exact absurd hc hnp
  | ok s' =>
    obtain ⟨_, _, _, _, h5, _⟩ := hsp s' hc
    have h6 := (h5 k hk).1 hp
    unfold covers at h6
    rw [List.any_eq_false] at h6
    have := h6 r hr
    simp [h1, h2] at this

/-- The check stays in force until the peer acknowledges, without the skipped number, a
packet that was really sent after it. -/
theorem in_force (ops : List PnOp) (s : PnState) (k : Nat) (h : Reaches ops s) (hk : s.skip = some k)
    (op : PnOp) (hop : op.Ok) (s' : PnState) (hs' : s.step op = some s') :
    s'.skip = some k ∨
      s'.skip = none ∧ ∃ epoch ranges paths, op = .ack epoch ranges paths ∧ ∃ pn, k < pn ∧ (epoch, pn) ∈ s.sent ∧
        ∃ r ∈ ranges, r.1 ≤ pn ∧ pn < r.2 := by
  cases op with
  | send e c m cm r ok =>
    obtain ⟨s2, e1, _, _, _, h5⟩ := send_spec h.inv e c m cm r ok hop
    have : s.step (.send e c m cm r ok) = s.send e c m cm r ok := rfl
    rw [this, e1] at hs'
    cases hs'
    exact .inl (h5 k hk)
  | ack e r p =>
    obtain ⟨hnp, hsp⟩ := ack_spec e r hop p s h.inv
    have hst : s.step (.ack e r p) = match s.ack e r p with
      | .ok s => some s
      | .error .panic => none
      | .error _ => some s := rfl
    rw [hst] at hs'
    cases hc : s.ack e r p with
    | error er =>
      rw [hc] at hs'
      cases er with
      | panic => cases hs'
      | invalidAckRange => cases hs'; exact .inl hk
      | optimisticAck => cases hs'; exact .inl hk
    | ok s2 =>
      rw [hc] at hs'
      cases hs'
      obtain ⟨_, _, _, _, h5, _⟩ := hsp s' hc
      rcases (h5 k hk).2 with h6 | ⟨h6, pn, h7, h8, h9⟩
      · exact .inl h6
      · refine .inr ⟨h6, e, r, p, rfl, pn, h7, h8, ?_⟩
        unfold covers at h9
        rw [List.any_eq_true] at h9
        obtain ⟨x, hx, hx2⟩ := h9
        exact ⟨x, hx, by simpa using hx2⟩

/-- The assertions about skipped numbers never fail and nothing divides by zero. -/
theorem no_panic (ops : List PnOp) (hok : ∀ op ∈ ops, op.Ok) : (PnState.run {} ops).isSome := by
  obtain ⟨s', e, _⟩ := run_inv ops hok {} PnInv.init
  rw [e]; rfl

/-- When the handshake is complete and no skipped number is pending, skipping is armed
by the next packet, and after at most 20 packets and two windows' worth of packets a number
is skipped: the counter is set, goes down by one per packet, and at zero the next send
skips. -/
theorem armed (s : PnState) (cwnd mds : Nat) (rnd : Nat → Nat) (hm : 0 < mds) (hr : ∀ n, 0 < n → rnd n < n)
    (hs : s.skip = none) (hc : s.counter = none) (epoch : Nat) :
    ∃ s' c, s.send epoch cwnd mds true rnd true = some s' ∧ s'.counter = some c ∧
      20 ≤ c ∧ c ≤ 20 + 2 * (cwnd / mds) := by
  unfold PnState.send PnState.pick PnState.shouldSkip
  simp only [hc, hs]
  rw [if_neg (by decide)]
  simp only [if_true]
  unfold PnState.onSent
  simp only [hs, hc]
  rw [if_pos (by decide)]
  unfold armCounter
  rw [if_neg (by omega)]
  have := hr (cwnd / mds * 2 - cwnd / mds / 2 + 1) (by omega)
  generalize cwnd / mds = q at *
  refine ⟨_, _, rfl, rfl, by simp only [minSkipCounter]; omega, by simp only [minSkipCounter]; omega⟩

theorem counts_down (s : PnState) (c cwnd mds : Nat) (completed : Bool) (rnd : Nat → Nat) (epoch : Nat)
    (hc : s.counter = some (c + 1)) :
    ∃ s', s.send epoch cwnd mds completed rnd true = some s' ∧ s'.counter = some c ∧ s'.skip = s.skip := by
  unfold PnState.send PnState.pick PnState.shouldSkip
  simp only [hc]
  rw [if_neg (by simp)]
  simp only [if_true]
  unfold PnState.onSent
  simp only [hc]
  exact ⟨_, rfl, rfl, rfl⟩

theorem skips (s : PnState) (cwnd mds : Nat) (rnd : Nat → Nat) (epoch : Nat) (ok : Bool)
    (hc : s.counter = some 0) (hs : s.skip = none) :
    ∃ s', s.send epoch cwnd mds true rnd ok = some s' ∧ s'.skip = some s.next := by
  unfold PnState.send PnState.pick PnState.shouldSkip PnState.setSkip
  simp only [hc, hs]
  rw [if_pos (by decide)]
  simp only [Option.isSome_some, Option.isSome_none, Bool.true_and, Bool.false_or]
  rw [if_neg (by decide)]
  cases ok
  · exact ⟨_, rfl, rfl⟩
  · simp only [if_true]
    unfold PnState.onSent
    simp

/-! ### Concrete case: 21 packets arm and run down the counter, the next skips 21 -/

def snd : PnOp := .send 2 1200 1200 true (fun _ => 0) true
example : (PnState.run {} (List.replicate 22 snd)).map (fun s => (s.sent.head?, s.skip, s.counter)) =
    some (some (2, 22), some 21, none) := by decide +kernel
example : ((PnState.run {} (List.replicate 22 snd)).map fun s => (s.ack 2 [(0, 23)] [(0, List.range 23)]).toOption.isSome) =
    some false := by decide +kernel
/-- An honest acknowledgement ends the check and a new one is armed later. -/
example : ((PnState.run {} (List.replicate 22 snd ++ [.ack 2 [(0, 21), (22, 23)] [(0, List.range 23)]])).map (·.skip)) =
    some none := by decide +kernel

end Verif.C74
