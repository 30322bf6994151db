import Verif.Rec.Account
import Verif.Props.C45

/-!
C87. The RTT estimates stay within what was measured: after any samples, whatever ack
delays the peer claims, the smoothed RTT is at most the greatest sample and at least the
least sample (up to 14 ns of rounding), the variation is at most the greatest sample, the
reported minimum is one of the samples, and the reported maximum is exactly the greatest
one. And a sample is only taken from an ACK that newly acknowledges the largest
acknowledged packet and at least one ack-eliciting packet, as the time since that packet
was sent.
-/

namespace Verif.Props.C87

open Verif.Rec
open Verif.Minmax

variable {σ : Type}

/-- One measurement: the sample, the delay the peer claims, the time, and whether the
handshake is confirmed. -/
structure Meas where
  sample : Nat
  delay : Nat
  now : Nat
  confirmed : Bool

/-- The estimator after measurements. -/
def updates (q h : Nat → Nat) (r : Rtt) : List Meas → Rtt
  | [] => r
  | m :: ms => updates q h (r.update q h m.sample m.delay m.now m.confirmed) ms

/-- What is claimed after samples between `lo` and `hi`. -/
structure Within (lo hi : Nat) (r : Rtt) : Prop where
  first : r.hasFirst = true
  upper : r.smoothed ≤ hi
  lower : lo ≤ r.smoothed + 14
  var : r.rttvar ≤ hi
  minRtt : lo ≤ r.minRtt.estimate
  minUpper : r.minRtt.estimate ≤ hi
  maxRtt : lo ≤ r.maxRtt ∧ r.maxRtt ≤ hi
  latest : lo ≤ r.latest ∧ r.latest ≤ hi

/-- Every value in the filter is within. -/
def FilterIn (lo hi : Nat) (f : Filter Nat) : Prop :=
  (lo ≤ f.e0.value ∧ f.e0.value ≤ hi) ∧ (lo ≤ f.e1.value ∧ f.e1.value ≤ hi) ∧ (lo ≤ f.e2.value ∧ f.e2.value ≤ hi)

theorem running_in {lo hi : Nat} (le : Nat → Nat → Bool) (q h : Nat → Nat) (f : Filter Nat) (win : Nat) (v : Sample Nat)
    (hf : FilterIn lo hi f) (hv : lo ≤ v.value ∧ v.value ≤ hi) : FilterIn lo hi (running le q h f win v) := by
  have h1 : FilterIn lo hi (replace le f v) := by
    unfold replace
    split
    · exact ⟨hf.1, hv, hv⟩
    · split
      · exact ⟨hf.1, hf.2.1, hv⟩
      · exact hf
  unfold running
  split
  · exact ⟨hv, hv, hv⟩
  · unfold subwinUpdate
    dsimp only
    split
    · unfold shiftAgain
      split
      · exact ⟨h1.2.2, hv, hv⟩
      · exact ⟨h1.2.1, h1.2.2, hv⟩
    · split
      · exact ⟨h1.1, hv, hv⟩
      · split
        · exact ⟨h1.1, h1.2.1, hv⟩
        · exact h1

theorem update_within {lo hi : Nat} (q h : Nat → Nat) (r : Rtt) (m : Meas) (hl : lo ≤ m.sample) (hu : m.sample ≤ hi)
    (hr : r.hasFirst = true → Within lo hi r ∧ FilterIn lo hi r.minRtt) :
    Within lo hi (r.update q h m.sample m.delay m.now m.confirmed) ∧ FilterIn lo hi (r.update q h m.sample m.delay m.now m.confirmed).minRtt := by
  unfold Rtt.update
  split
  · exact ⟨⟨rfl, hu, by dsimp only; omega, by dsimp only; omega, hl, hu, ⟨hl, hu⟩, ⟨hl, hu⟩⟩, ⟨hl, hu⟩, ⟨hl, hu⟩, ⟨hl, hu⟩⟩
  · rename_i hn
    have hf : r.hasFirst = true := by cases hx : r.hasFirst <;> simp_all
    obtain ⟨hw, hfi⟩ := hr hf
    dsimp only
    have hrun := running_in (fun a b => decide (a ≤ b)) q h r.minRtt rttWindow ⟨m.now, m.sample⟩ hfi ⟨hl, hu⟩
    have hest : lo ≤ (running (fun a b => decide (a ≤ b)) q h r.minRtt rttWindow ⟨m.now, m.sample⟩).estimate := hrun.1.1
    generalize running (fun a b => decide (a ≤ b)) q h r.minRtt rttWindow ⟨m.now, m.sample⟩ = f at *
    generalize capDelay m.confirmed r.maxAckDelay m.delay = d
    have ha : lo ≤ adjust m.sample f.estimate d ∧ adjust m.sample f.estimate d ≤ hi := by
      unfold adjust
      split <;> omega
    have hs1 := hw.upper
    have hs2 := hw.lower
    have hs3 := hw.var
    have hs4 := hw.maxRtt
    refine ⟨⟨hf, ?_, ?_, ?_, hest, hrun.1.2, ?_, ⟨hl, hu⟩⟩, hrun⟩
    · dsimp only; omega
    · dsimp only; omega
    · dsimp only
      unfold absDiff
      omega
    · dsimp only
      have m1 : r.maxRtt ≤ Nat.max r.maxRtt m.sample := Nat.le_max_left _ _
      exact ⟨by omega, Nat.max_le.2 ⟨hs4.2, hu⟩⟩

theorem updates_within {lo hi : Nat} (q h : Nat → Nat) : ∀ (ms : List Meas) (r : Rtt),
    (r.hasFirst = true → Within lo hi r ∧ FilterIn lo hi r.minRtt) → (∀ m ∈ ms, lo ≤ m.sample ∧ m.sample ≤ hi) →
    ((updates q h r ms).hasFirst = true → Within lo hi (updates q h r ms) ∧ FilterIn lo hi (updates q h r ms).minRtt)
  | [], _, hr, _ => hr
  | m :: ms, r, hr, hm =>
    updates_within q h ms _ (fun _ => update_within q h r m (hm m List.mem_cons_self).1 (hm m List.mem_cons_self).2 hr)
      fun x hx => hm x (List.mem_cons_of_mem _ hx)

theorem updates_first (q h : Nat → Nat) : ∀ (ms : List Meas) (r : Rtt), r.hasFirst = true → (updates q h r ms).hasFirst = true
  | [], _, hr => hr
  | m :: ms, r, hr => by
    apply updates_first q h ms
    unfold Rtt.update
    split
    · rfl
    · exact hr

/-- After any samples the estimates are within them, whatever the claimed delays. -/
theorem within (q h : Nat → Nat) (t0 r0 d : Nat) (m : Meas) (ms : List Meas) (lo hi : Nat)
    (hs : ∀ x ∈ m :: ms, lo ≤ x.sample ∧ x.sample ≤ hi) : Within lo hi (updates q h (Rtt.new t0 r0 d) (m :: ms)) := by
  refine (updates_within q h (m :: ms) (Rtt.new t0 r0 d) (fun hx => by cases hx) hs ?_).1
  exact updates_first q h ms _ rfl

/-- The greatest sample. -/
def greatest : List Meas → Nat
  | [] => 0
  | m :: ms => if m.sample ≤ greatest ms then greatest ms else m.sample

theorem updates_max (q h : Nat → Nat) : ∀ (ms : List Meas) (r : Rtt), r.hasFirst = true →
    (updates q h r ms).maxRtt = if greatest ms ≤ r.maxRtt then r.maxRtt else greatest ms
  | [], r, _ => by simp [updates, greatest]
  | m :: ms, r, hr => by
    have hu : r.update q h m.sample m.delay m.now m.confirmed =
        { r.update q h m.sample m.delay m.now m.confirmed with maxRtt := Nat.max r.maxRtt m.sample } := by
      unfold Rtt.update
      rw [if_neg (by rw [hr]; decide)]
    have h1 : (r.update q h m.sample m.delay m.now m.confirmed).hasFirst = true := by
      unfold Rtt.update
      rw [if_neg (by rw [hr]; decide)]
      exact hr
    show (updates q h (r.update q h m.sample m.delay m.now m.confirmed) ms).maxRtt = _
    rw [updates_max q h ms _ h1]
    have h2 : (r.update q h m.sample m.delay m.now m.confirmed).maxRtt = Nat.max r.maxRtt m.sample := by rw [hu]
    rw [h2]
    simp only [greatest]
    rcases Nat.le_total r.maxRtt m.sample with hle | hle
    · rw [show Nat.max r.maxRtt m.sample = m.sample from Nat.max_eq_right hle]
      repeat' split
      all_goals omega
    · rw [show Nat.max r.maxRtt m.sample = r.maxRtt from Nat.max_eq_left hle]
      repeat' split
      all_goals omega

/-- The reported maximum is exactly the greatest sample; the initial RTT does not count. -/
theorem max_exact (q h : Nat → Nat) (t0 r0 d : Nat) (m : Meas) (ms : List Meas) :
    (updates q h (Rtt.new t0 r0 d) (m :: ms)).maxRtt = greatest (m :: ms) := by
  show (updates q h ((Rtt.new t0 r0 d).update q h m.sample m.delay m.now m.confirmed) ms).maxRtt = _
  rw [updates_max q h ms _ rfl]
  show (if greatest ms ≤ m.sample then m.sample else greatest ms) = _
  simp only [greatest]
  repeat' split
  all_goals omega

/-- The samples, the latest first, with their times. -/
def history : List Meas → List (Sample Nat)
  | [] => []
  | m :: ms => history ms ++ [⟨m.now, m.sample⟩]

theorem feed_foldr (le : Nat → Nat → Bool) (q h : Nat → Nat) (win : Nat) (first : Sample Nat) : ∀ l : List (Sample Nat),
    feed le q h win first l = l.foldr (fun w acc => running le q h acc win w) (reset first.time first.value)
  | [] => rfl
  | w :: l => by
    show running le q h (feed le q h win first l) win w = _
    rw [feed_foldr le q h win first l]
    rfl

theorem updates_min (q h : Nat → Nat) : ∀ (ms : List Meas) (r : Rtt), r.hasFirst = true →
    (updates q h r ms).minRtt = (history ms).foldr (fun w acc => running (fun a b => decide (a ≤ b)) q h acc rttWindow w) r.minRtt
  | [], _, _ => rfl
  | m :: ms, r, hr => by
    have h1 : (r.update q h m.sample m.delay m.now m.confirmed).hasFirst = true := by
      unfold Rtt.update
      rw [if_neg (by rw [hr]; decide)]
      exact hr
    have h2 : (r.update q h m.sample m.delay m.now m.confirmed).minRtt =
        running (fun a b => decide (a ≤ b)) q h r.minRtt rttWindow ⟨m.now, m.sample⟩ := by
      unfold Rtt.update
      rw [if_neg (by rw [hr]; decide)]
    show (updates q h (r.update q h m.sample m.delay m.now m.confirmed) ms).minRtt = _
    rw [updates_min q h ms _ h1, h2]
    simp only [history, List.foldr_append]
    rfl

/-- The minimum is the windowed minimum of all samples (C45), starting from the first. -/
theorem min_is_filter (q h : Nat → Nat) (t0 r0 d : Nat) (m : Meas) (ms : List Meas) :
    (updates q h (Rtt.new t0 r0 d) (m :: ms)).minRtt =
      feed (fun a b => decide (a ≤ b)) q h rttWindow ⟨m.now, m.sample⟩ (history ms) := by
  show (updates q h ((Rtt.new t0 r0 d).update q h m.sample m.delay m.now m.confirmed) ms).minRtt = _
  rw [updates_min q h ms _ rfl, feed_foldr]
  rfl

/-! ### Which samples are taken -/

theorem detectLost_rtt (en : Env σ) (s : State σ) (e : Epoch) (now : Nat) : (s.detectLost en e now).2.rtt = s.rtt := by cases e <;> rfl

/-- An ACK leaves the estimator alone or feeds it one sample: the time since a newly
acknowledged packet was sent, namely the last one found, whose number is at least the
largest acknowledged before; and then some newly acknowledged packet is ack-eliciting. -/
theorem sampled (en : Env σ) (s : State σ) (e : Epoch) (ranges : List (Nat × Nat)) (delay : Nat) (st : Status) (now : Nat) (skip : Option Nat) :
    (step en s (.ack e ranges delay st now skip)).1.rtt = s.rtt ∨
    ∃ p, (step en s (.ack e ranges delay st now skip)).2.acked.getLast? = some p ∧ (s.get e).largestAcked.getD 0 ≤ p.pn ∧
      ((s.get e).acked now s.rtt.smoothed skip ranges).2.1.eliciting = true ∧
      (step en s (.ack e ranges delay st now skip)).1.rtt =
        s.rtt.update en.quarter en.half (now - p.timeSent) (delay * 1000) now st.completed := by
  show (s.onAck en e ranges delay st now skip).1.rtt = s.rtt ∨
    ∃ p, (s.onAck en e ranges delay st now skip).2.acked.getLast? = some p ∧ _ ∧ _ ∧ (s.onAck en e ranges delay st now skip).1.rtt = _
  rcases onAck_cases en s e ranges delay st now skip with ⟨_, he⟩ | ⟨hnf, hn, he⟩ | ⟨hnf, last, hl, he⟩
  · left; rw [he]; cases e <;> rfl
  · left; rw [he]; cases e <;> rfl
  · rw [he]
    have hr : ∀ u : State σ, (u.ackTail en e ((s.get e).acked now s.rtt.smoothed skip ranges).2.1 last delay st now).1.rtt =
        u.sample en ((s.get e).acked now s.rtt.smoothed skip ranges).2.1 last (Nat.max ((u.get e).largestAcked.getD 0) last.pn) delay st now := by
      intro u; cases e <;> rfl
    have hla : ((((s.set e ((s.get e).acked now s.rtt.smoothed skip ranges).2.2).spurious en
        ((s.get e).acked now s.rtt.smoothed skip ranges).2.1).get e).largestAcked) = (s.get e).largestAcked := by
      rw [spurious_get, get_set_same]
      unfold Space.acked
      dsimp only
      split <;> rfl
    have hrt : ((s.set e ((s.get e).acked now s.rtt.smoothed skip ranges).2.2).spurious en
        ((s.get e).acked now s.rtt.smoothed skip ranges).2.1).rtt = s.rtt := by cases e <;> rfl
    rw [hr]
    unfold State.sample
    rw [hla, hrt]
    split
    · rename_i hc
      right
      refine ⟨last, hl, ?_, hc.2, rfl⟩
      have : (s.get e).largestAcked.getD 0 ≤ Nat.max ((s.get e).largestAcked.getD 0) last.pn := Nat.le_max_left _ _
      omega
    · exact Or.inl rfl

/-- No other call changes the estimates. -/
theorem only_acks (en : Env σ) (s : State σ) (o : Op) (h : ∀ e r d st now skip, o ≠ .ack e r d st now skip) :
    { (step en s o).1.rtt with maxAckDelay := s.rtt.maxAckDelay } = s.rtt := by
  cases o with
  | ack e r d st now skip => exact absurd rfl (h e r d st now skip)
  | send e p st now =>
    have : (s.onSent en e (p.sent now) st now).rtt = s.rtt := by
      unfold State.onSent
      dsimp only
      generalize hg : (State.sentCounters en s (p.sent now) now).set e (((State.sentCounters en s (p.sent now) now).get e).onSent (p.sent now) now) = u
      have hu : u.rtt = s.rtt := by rw [← hg]; cases e <;> rfl
      rw [← hu]
      unfold State.sentInFlight
      split <;> cases e <;> rfl
    show { (s.onSent en e (p.sent now) st now).rtt with maxAckDelay := s.rtt.maxAckDelay } = s.rtt
    rw [this]
  | timeout st now =>
    have : (s.onTimeout en st now).1.rtt = s.rtt := by
      unfold State.onTimeout
      split
      · exact detectLost_rtt en s _ now
      · dsimp only
        unfold State.onPto
        dsimp only
        cases s.ptoSpace st now <;> rfl
    show { (s.onTimeout en st now).1.rtt with maxAckDelay := s.rtt.maxAckDelay } = s.rtt
    rw [this]
  | discard e st' now => cases e <;> rfl
  | pathChange e now => cases e <;> rfl
  | pingSent e => cases e <;> rfl
  | nextAcked e => cases e <;> rfl
  | nextLost e => cases e <;> rfl
  | ackDelay d => rfl

/-! ### Concrete -/

/-- Samples 100, 60, 140 with claimed delays up to far too much. -/
example :
    let ms : List Meas := [⟨100000, 0, 1, true⟩, ⟨60000, 5000, 2, true⟩, ⟨140000, 99999999, 3, true⟩]
    let r := updates (· / 4) (· / 2) (Rtt.new 0 333000000 25000) ms
    (r.smoothed, r.rttvar, r.minRtt.estimate, r.maxRtt, r.latest) = (97500, 40625, 60000, 140000, 140000) := by decide +kernel

end Verif.Props.C87
