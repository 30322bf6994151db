import Verif.Props.C85

/-!
C86. The probe timeout is as specified (RFC 9002 section 6.2.1): the smoothed RTT plus
four times its variation (at least 1 ms) plus, for application data, the peer's maximum
ack delay, doubled for every probe timeout since the last progress, and counted from the
last ack-eliciting packet of the packet number space. The earliest of the spaces counts,
provided all packets in flight are ack-eliciting (see C85 for the exception).
-/

namespace Verif.Props.C86

open Verif.Rec
open Verif.Props.C46 (trivialEnv s0 data)
open Verif.Props.C85 (Timed)

variable {σ : Type}

/-- The specified period with `n` probe timeouts so far. The code saturates the factor at
`2^32 - 1`. -/
def period (srtt var ackDelay n : Nat) (e : Epoch) : Nat :=
  (srtt + (if 4 * var < 1000000 then 1000000 else 4 * var) + (if e = .application then ackDelay else 0)) *
    (if n < 32 then 2 ^ n else 2 ^ 32 - 1)

/-- When a space would be probed: it must have a packet in flight, and application data is
not probed before the handshake is completed. -/
def due (s : State σ) (st : Status) (e : Epoch) (t : Nat) : Prop :=
  (s.get e).inFlightCount ≠ 0 ∧ (e = .application → st.completed = true) ∧
    ∃ t0, (s.get e).lastEliciting = some t0 ∧ t = t0 + period s.rtt.smoothed s.rtt.rttvar s.rtt.maxAckDelay s.ptoCount e

theorem pow2_eq (n : Nat) : pow2 n = if n < 32 then 2 ^ n else 2 ^ 32 - 1 := by
  unfold pow2
  split
  · rename_i h
    have : 2 ^ n ≤ 2 ^ 31 := Nat.pow_le_pow_right (by decide) (by omega)
    exact Nat.min_eq_left (by omega)
  · rename_i h
    have : 2 ^ 32 ≤ 2 ^ n := Nat.pow_le_pow_right (by decide) (by omega)
    exact Nat.min_eq_right (by omega)

theorem pto_eq (s : State σ) : s.pto = s.rtt.smoothed + (if 4 * s.rtt.rttvar < 1000000 then 1000000 else 4 * s.rtt.rttvar) := by
  unfold State.pto
  congr 1
  simp only [granularity]
  split
  · exact Nat.max_eq_right (by omega)
  · rw [Nat.mul_comm]; exact Nat.max_eq_left (by omega)

/-- What a step leaves: the earlier of the two. -/
theorem ptoStep_spec (s : State σ) (d : Nat) (acc : Option Nat × Epoch) (e : Epoch) (t0 : Nat)
    (hc : (s.get e).inFlightCount ≠ 0) (ht : (s.get e).lastEliciting = some t0) :
    (ptoStep s d acc e).1 = some (match acc.1 with | none => t0 + d | some u => if t0 + d < u then t0 + d else u) := by
  unfold ptoStep
  rw [if_neg hc, ht]
  cases ha : acc.1 with
  | none => simp
  | some u =>
    simp only [Option.map, optLt]
    by_cases h' : t0 + d < u
    · simp [h']
    · simp [h', ha]

/-- The times found in the spaces looked at so far. -/
def Least (P : Nat → Prop) : Option Nat → Prop
  | none => ∀ t, ¬ P t
  | some t => P t ∧ ∀ u, P u → t ≤ u

theorem ptoStep_least {s : State σ} (h : Timed s) {P : Nat → Prop} {d : Nat} {acc : Option Nat × Epoch} (e : Epoch) (ha : Least P acc.1) :
    Least (fun t => P t ∨ ((s.get e).inFlightCount ≠ 0 ∧ ∃ t0, (s.get e).lastEliciting = some t0 ∧ t = t0 + d)) (ptoStep s d acc e).1 := by
  by_cases hc : (s.get e).inFlightCount = 0
  · unfold ptoStep
    rw [if_pos hc]
    cases hx : acc.1 with
    | none => rw [hx] at ha; intro t; exact fun hh => hh.elim (fun h1 => ha t h1) (fun h1 => h1.1 hc)
    | some u =>
      rw [hx] at ha
      refine ⟨Or.inl ha.1, ?_⟩
      rintro v (h1 | ⟨h1, _⟩)
      · exact ha.2 v h1
      · exact absurd hc h1
  · have hs := h e hc
    cases ht : (s.get e).lastEliciting with
    | none => rw [ht] at hs; cases hs
    | some t0 =>
      rw [ptoStep_spec s d acc e t0 hc ht]
      cases hx : acc.1 with
      | none =>
        rw [hx] at ha
        refine ⟨Or.inr ⟨hc, t0, rfl, rfl⟩, ?_⟩
        rintro v (h1 | ⟨_, t1, h1, h2⟩)
        · exact absurd h1 (ha v)
        · cases h1; exact Nat.le_of_eq h2.symm
      | some u =>
        rw [hx] at ha
        by_cases hlt : t0 + d < u
        · simp only [if_pos hlt]
          refine ⟨Or.inr ⟨hc, t0, rfl, rfl⟩, ?_⟩
          rintro v (h1 | ⟨_, t1, h1, h2⟩)
          · have := ha.2 v h1; omega
          · cases h1; exact Nat.le_of_eq h2.symm
        · simp only [if_neg hlt]
          refine ⟨Or.inl ha.1, ?_⟩
          rintro v (h1 | ⟨_, t1, h1, h2⟩)
          · exact ha.2 v h1
          · cases h1; omega

theorem Least.congr {P Q : Nat → Prop} (h : ∀ t, P t ↔ Q t) {o : Option Nat} (hl : Least P o) : Least Q o := by
  cases o with
  | none => intro t hq; exact hl t ((h t).2 hq)
  | some t => exact ⟨(h t).1 hl.1, fun u hu => hl.2 u ((h u).2 hu)⟩

/-- Whenever the timer is computed with no loss time pending and bytes in flight, it is the
earliest time at which a space is due to be probed, if all spaces with packets in flight
have sent an ack-eliciting one. If no space is due there is no timer. -/
theorem probe_time (s : State σ) (st : Status) (now : Nat) (hl : s.lossTimeAndSpace.1 = none) (hb : 0 < s.flight.bytes) (ht : Timed s) :
    Least (fun t => ∃ e, due s st e t) (s.setTimer st now).timer := by
  show Least _ (s.timerFor st now)
  unfold State.timerFor
  rw [hl, if_neg (by simp), if_neg (by rintro ⟨h0, _⟩; omega)]
  unfold State.ptoTimeAndSpace
  dsimp only
  rw [if_neg (by omega)]
  have h0 : Least (fun _ => False) (none : Option Nat) := fun _ h => h
  have h1 := ptoStep_least ht (d := s.pto * pow2 s.ptoCount) (acc := (none, Epoch.initial)) .initial h0
  have h2 := ptoStep_least ht (d := s.pto * pow2 s.ptoCount) .handshake h1
  have ee : ∀ e, e ≠ Epoch.application → period s.rtt.smoothed s.rtt.rttvar s.rtt.maxAckDelay s.ptoCount e = s.pto * pow2 s.ptoCount := by
    intro e he
    unfold period
    rw [if_neg he, pow2_eq, pto_eq]; rfl
  have ea : period s.rtt.smoothed s.rtt.rttvar s.rtt.maxAckDelay s.ptoCount .application =
      s.pto * pow2 s.ptoCount + s.rtt.maxAckDelay * pow2 s.ptoCount := by
    unfold period
    rw [if_pos rfl, pow2_eq, pto_eq, Nat.add_mul]
  split
  · rename_i hc
    refine h2.congr ?_
    intro t
    constructor
    · rintro ((h | ⟨h, t0, h3, h4⟩) | ⟨h, t0, h3, h4⟩)
      · cases h
      · exact ⟨.initial, h, (fun h => by cases h), t0, h3, by rw [ee _ (by decide)]; exact h4⟩
      · exact ⟨.handshake, h, (fun h => by cases h), t0, h3, by rw [ee _ (by decide)]; exact h4⟩
    · rintro ⟨e, h, h5, t0, h3, h4⟩
      cases e with
      | initial => rw [ee _ (by decide)] at h4; exact Or.inl (Or.inr ⟨h, t0, h3, h4⟩)
      | handshake => rw [ee _ (by decide)] at h4; exact Or.inr ⟨h, t0, h3, h4⟩
      | application => rw [hc] at h5; cases h5 rfl
  · rename_i hc
    have hc' : st.completed = true := by cases hx : st.completed <;> simp_all
    have h3 := ptoStep_least ht (d := s.pto * pow2 s.ptoCount + s.rtt.maxAckDelay * pow2 s.ptoCount) .application h2
    refine h3.congr ?_
    intro t
    constructor
    · rintro (((h | ⟨h, t0, h3, h4⟩) | ⟨h, t0, h3, h4⟩) | ⟨h, t0, h3, h4⟩)
      · cases h
      · exact ⟨.initial, h, (fun h => by cases h), t0, h3, by rw [ee _ (by decide)]; exact h4⟩
      · exact ⟨.handshake, h, (fun h => by cases h), t0, h3, by rw [ee _ (by decide)]; exact h4⟩
      · exact ⟨.application, h, fun _ => hc', t0, h3, by rw [ea]; exact h4⟩
    · rintro ⟨e, h, h5, t0, h3, h4⟩
      cases e with
      | initial => rw [ee _ (by decide)] at h4; exact Or.inl (Or.inl (Or.inr ⟨h, t0, h3, h4⟩))
      | handshake => rw [ee _ (by decide)] at h4; exact Or.inl (Or.inr ⟨h, t0, h3, h4⟩)
      | application => rw [ea] at h4; exact Or.inr ⟨h, t0, h3, h4⟩

/-! ### The count of probe timeouts -/

/-- The number of probe timeouts since the last progress: it is zero after an ACK that
acknowledges something new, one more after a timeout without pending loss time, and
otherwise unchanged. -/
theorem count (en : Env σ) (s : State σ) (o : Op) (hf : (step en s o).1.failed = false) : (step en s o).1.ptoCount =
    match o with
    | .ack .. => if (step en s o).2.acked = [] then s.ptoCount else 0
    | .timeout .. => if s.lossTimeAndSpace.1.isSome = true then s.ptoCount else s.ptoCount + 1
    | _ => s.ptoCount := by
  cases o with
  | send e p st now =>
    show (s.onSent en e (p.sent now) st now).ptoCount = s.ptoCount
    unfold State.onSent
    dsimp only
    generalize hg : (State.sentCounters en s (p.sent now) now).set e (((State.sentCounters en s (p.sent now) now).get e).onSent (p.sent now) now) = u
    have hu : u.ptoCount = s.ptoCount := by rw [← hg]; cases e <;> rfl
    rw [← hu]
    unfold State.sentInFlight
    split <;> cases e <;> rfl
  | ack e rs delay st now skip =>
    have hf' : (s.onAck en e rs delay st now skip).1.failed = false := hf
    show (s.onAck en e rs delay st now skip).1.ptoCount = if (s.onAck en e rs delay st now skip).2.acked = [] then s.ptoCount else 0
    rcases onAck_cases en s e rs delay st now skip with ⟨_, he⟩ | ⟨hnf, hn, he⟩ | ⟨hnf, last, hl, he⟩
    · rw [he] at hf'; cases hf'
    · rw [he]; cases e <;> rfl
    · rw [he]
      have hne : ¬ ((s.get e).acked now s.rtt.smoothed skip rs).2.1.newly = [] := by intro h; rw [h] at hl; cases hl
      show _ = if ((s.get e).acked now s.rtt.smoothed skip rs).2.1.newly = [] then _ else 0
      rw [if_neg hne]
      cases e <;> rfl
  | timeout st now =>
    show (s.onTimeout en st now).1.ptoCount = if s.lossTimeAndSpace.1.isSome = true then s.ptoCount else s.ptoCount + 1
    unfold State.onTimeout
    split
    · dsimp only; cases s.lossTimeAndSpace.2 <;> rfl
    · dsimp only
      unfold State.onPto
      dsimp only
      cases s.ptoSpace st now <;> rfl
  | discard e st' now => cases e <;> rfl
  | pathChange e now => cases e <;> rfl
  | pingSent e => cases e <;> rfl
  | nextAcked e => cases e <;> rfl
  | nextLost e => cases e <;> rfl
  | ackDelay d => rfl

/-- A probe timeout changes nothing the next timer depends on but the count. -/
theorem onPto_same (s : State σ) (st : Status) (now : Nat) (e : Epoch) :
    (s.onPto st now).rtt = s.rtt ∧ (s.onPto st now).flight = s.flight ∧ (s.onPto st now).ptoCount = s.ptoCount + 1 ∧
    ((s.onPto st now).get e).inFlightCount = (s.get e).inFlightCount ∧ ((s.onPto st now).get e).lastEliciting = (s.get e).lastEliciting ∧
    ((s.onPto st now).get e).lossTime = (s.get e).lossTime := by
  unfold State.onPto
  dsimp only
  cases s.ptoSpace st now <;> cases e <;> exact ⟨rfl, rfl, rfl, rfl, rfl, rfl⟩

theorem onPto_loss (s : State σ) (st : Status) (now : Nat) : (s.onPto st now).lossTimeAndSpace = s.lossTimeAndSpace := by
  have hi := (onPto_same s st now .initial).2.2.2.2.2
  have hh := (onPto_same s st now .handshake).2.2.2.2.2
  have ha := (onPto_same s st now .application).2.2.2.2.2
  simp only [State.get] at hi hh ha
  unfold State.lossTimeAndSpace lossStep
  simp only [State.get, hi, hh, ha]
  rfl

/-- Timeouts, one after the other. -/
def timeouts (en : Env σ) (st : Status) (s : State σ) : List Nat → State σ
  | [] => s
  | t :: ts => timeouts en st (step en s (.timeout st t)).1 ts

theorem timeouts_same (en : Env σ) (st : Status) : ∀ (ts : List Nat) (s : State σ), s.lossTimeAndSpace.1 = none →
    (timeouts en st s ts).ptoCount = s.ptoCount + ts.length ∧ (timeouts en st s ts).rtt = s.rtt ∧ (timeouts en st s ts).flight = s.flight ∧
    (timeouts en st s ts).lossTimeAndSpace.1 = none ∧
    ∀ e, ((timeouts en st s ts).get e).inFlightCount = (s.get e).inFlightCount ∧ ((timeouts en st s ts).get e).lastEliciting = (s.get e).lastEliciting
  | [], _, h => ⟨rfl, rfl, rfl, h, fun _ => ⟨rfl, rfl⟩⟩
  | t :: ts, s, h => by
    have he : (step en s (.timeout st t)).1 = s.onPto st t := by
      show (s.onTimeout en st t).1 = _
      unfold State.onTimeout
      rw [h, if_neg (by simp)]
    show (timeouts en st (step en s (.timeout st t)).1 ts).ptoCount = _ ∧ (timeouts en st (step en s (.timeout st t)).1 ts).rtt = _ ∧
      (timeouts en st (step en s (.timeout st t)).1 ts).flight = _ ∧ (timeouts en st (step en s (.timeout st t)).1 ts).lossTimeAndSpace.1 = _ ∧
      ∀ e, ((timeouts en st (step en s (.timeout st t)).1 ts).get e).inFlightCount = _ ∧
        ((timeouts en st (step en s (.timeout st t)).1 ts).get e).lastEliciting = _
    rw [he]
    obtain ⟨h1, h2, h3, h4, h5⟩ := timeouts_same en st ts (s.onPto st t) (by rw [onPto_loss]; exact h)
    have hs := onPto_same s st t
    refine ⟨?_, ?_, ?_, h4, ?_⟩
    · rw [h1, (hs .initial).2.2.1, List.length_cons]; omega
    · rw [h2, (hs .initial).1]
    · rw [h3, (hs .initial).2.1]
    · intro e
      rw [(h5 e).1, (h5 e).2]
      exact ⟨(hs e).2.2.2.1, (hs e).2.2.2.2.1⟩

theorem timeouts_snoc (en : Env σ) (st : Status) (t : Nat) : ∀ (ts : List Nat) (s : State σ),
    timeouts en st s (ts ++ [t]) = (step en (timeouts en st s ts) (.timeout st t)).1
  | [], _ => rfl
  | _ :: ts, s => timeouts_snoc en st t ts _

/-- With nothing acknowledged in between, the timer after `k` further timeouts (`k ≥ 1`) is
the time of the last ack-eliciting packet plus the period for `k` more timeouts: here when
the data in flight is all in one space. Thus the period doubles every time, up to 2^31
times the first. -/
theorem backoff (en : Env σ) (st : Status) (s : State σ) (ts : List Nat) (t : Nat) (e : Epoch) (t0 : Nat)
    (hl : s.lossTimeAndSpace.1 = none) (hb : 0 < s.flight.bytes) (hc : (s.get e).inFlightCount ≠ 0) (ht : (s.get e).lastEliciting = some t0)
    (ho : ∀ e', e' ≠ e → (s.get e').inFlightCount = 0) (ha : e = .application → st.completed = true) :
    (timeouts en st s (ts ++ [t])).timer =
      some (t0 + period s.rtt.smoothed s.rtt.rttvar s.rtt.maxAckDelay (s.ptoCount + (ts.length + 1)) e) := by
  obtain ⟨h1, h2, h3, h4, h5⟩ := timeouts_same en st ts s hl
  have hn := timeouts_same en st (ts ++ [t]) s hl
  obtain ⟨n1, n2, n3, n4, n5⟩ := hn
  have htm : (timeouts en st s (ts ++ [t])).timer = (timeouts en st s (ts ++ [t])).timerFor st t := by
    rw [timeouts_snoc]
    show ((timeouts en st s ts).onTimeout en st t).1.timer = ((timeouts en st s ts).onTimeout en st t).1.timerFor st t
    unfold State.onTimeout
    split <;> rfl
  rw [htm]
  generalize timeouts en st s (ts ++ [t]) = u at *
  have hT : Timed u := by
    intro e' he'
    by_cases hee : e' = e
    · subst hee; rw [(n5 e').2, ht]; rfl
    · exact absurd (by rw [(n5 e').1]; exact ho e' hee) he'
  have hp := probe_time u st t n4 (by rw [n3]; exact hb) hT
  have hd : due u st e (t0 + period s.rtt.smoothed s.rtt.rttvar s.rtt.maxAckDelay (s.ptoCount + (ts.length + 1)) e) := by
    refine ⟨by rw [(n5 e).1]; exact hc, ha, t0, by rw [(n5 e).2]; exact ht, ?_⟩
    rw [n2, n1]
    simp
  change Least _ (u.timerFor st t) at hp
  cases hx : u.timerFor st t with
  | none => rw [hx] at hp; exact absurd ⟨e, hd⟩ (hp _)
  | some v =>
    rw [hx] at hp
    obtain ⟨⟨e', hd'⟩, _⟩ := hp
    have hee : e' = e := by
      cases Classical.em (e' = e) with
      | inl h => exact h
      | inr h => exact absurd (by rw [(n5 e').1]; exact ho e' h) hd'.1
    subst hee
    obtain ⟨_, _, t1, h6, h7⟩ := hd'
    obtain ⟨_, _, t2, h8, h9⟩ := hd
    rw [h6] at h8; cases h8
    rw [h7, h9]

/-- Doubling. -/
theorem period_doubles (srtt var d n : Nat) (e : Epoch) (h : n < 31) : period srtt var d (n + 1) e = 2 * period srtt var d n e := by
  unfold period
  have h1 : n + 1 < 32 := by omega
  have h2 : n < 32 := by omega
  rw [if_pos h1, if_pos h2, Nat.pow_succ, Nat.mul_comm (2 ^ n) 2, Nat.mul_left_comm]

/-! ### Probes -/

theorem get_probes (s : State σ) (h : ∀ e, (s.get e).lossProbes ≤ 2) (e : Epoch) (x : Space) (hx : x.lossProbes ≤ 2) :
    ∀ e', ((s.set e x).get e').lossProbes ≤ 2 := by
  intro e'
  rw [get_set]
  split
  · exact hx
  · exact h e'

/-- At most two probes are requested at a time. -/
theorem probes (en : Env σ) (s : State σ) (o : Op) (h : ∀ e, (s.get e).lossProbes ≤ 2) :
    ∀ e, ((step en s o).1.get e).lossProbes ≤ 2 := by
  intro e
  cases o with
  | send e' p st now =>
    show ((s.onSent en e' (p.sent now) st now).get e).lossProbes ≤ 2
    rw [onSent_get]
    split
    · exact h _
    · exact h _
  | ack e' rs delay st now skip =>
    show ((s.onAck en e' rs delay st now skip).1.get e).lossProbes ≤ 2
    have hset : ((s.set e' ((s.get e').acked now s.rtt.smoothed skip rs).2.2).get e).lossProbes = (s.get e).lossProbes := by
      rw [get_set]
      split
      · subst_vars
        unfold Space.acked
        dsimp only
        split <;> rfl
      · rfl
    rcases onAck_cases en s e' rs delay st now skip with ⟨_, he⟩ | ⟨hnf, hn, he⟩ | ⟨hnf, last, hl, he⟩
    · rw [he]
      show ((s.set e' ((s.get e').acked now s.rtt.smoothed skip rs).2.2).get e).lossProbes ≤ 2
      rw [hset]; exact h e
    · rw [he, spurious_get, hset]; exact h e
    · rw [he]
      have : ((((s.set e' ((s.get e').acked now s.rtt.smoothed skip rs).2.2).spurious en ((s.get e').acked now s.rtt.smoothed skip rs).2.1).ackTail
          en e' ((s.get e').acked now s.rtt.smoothed skip rs).2.1 last delay st now).1.get e).lossProbes =
          ((s.set e' ((s.get e').acked now s.rtt.smoothed skip rs).2.2).get e).lossProbes := by
        generalize s.set e' ((s.get e').acked now s.rtt.smoothed skip rs).2.2 = u
        cases e' <;> cases e <;> rfl
      rw [this, hset]; exact h e
  | timeout st now =>
    show ((s.onTimeout en st now).1.get e).lossProbes ≤ 2
    unfold State.onTimeout
    split
    · dsimp only
      rw [setTimer_get]
      have : ((s.detectLost en s.lossTimeAndSpace.2 now).2.get e).lossProbes = (s.get e).lossProbes := by
        cases s.lossTimeAndSpace.2 <;> cases e <;> rfl
      rw [this]; exact h e
    · dsimp only
      unfold State.onPto
      dsimp only
      rw [setTimer_get]
      apply get_probes
      · intro e'
        cases e' with
        | initial => exact h .initial
        | handshake => exact h .handshake
        | application => exact h .application
      · exact Nat.min_le_right _ _
  | discard e' st now =>
    show ((s.onDiscard e' st now).get e).lossProbes ≤ 2
    rw [onDiscard_get]
    split
    · exact Nat.zero_le _
    · exact h e
  | pathChange e' now =>
    show ((s.detectLost en e' now).2.get e).lossProbes ≤ 2
    have : ((s.detectLost en e' now).2.get e).lossProbes = (s.get e).lossProbes := by cases e' <;> cases e <;> rfl
    rw [this]; exact h e
  | pingSent e' =>
    refine get_probes s h e' _ ?_ e
    show (s.get e').lossProbes - 1 ≤ 2
    have := h e'; omega
  | nextAcked e' => exact get_probes s h e' { s.get e' with ackedFrames := (s.get e').ackedFrames.dropLast } (h e') e
  | nextLost e' =>
    refine get_probes s h e' _ ?_ e
    unfold Space.nextLost
    split <;> exact h e'
  | ackDelay d =>
    cases e with
    | initial => exact h .initial
    | handshake => exact h .handshake
    | application => exact h .application

/-- In every history at most two probes are requested per space. -/
theorem probes_run (en : Env σ) : ∀ (os : List Op) (s : State σ), (∀ e, (s.get e).lossProbes ≤ 2) → ∀ e, ((run en s os).1.get e).lossProbes ≤ 2
  | [], _, h => h
  | o :: os, s, h => probes_run en os _ (probes en s o h)

/-- A probe timeout schedules again the frames of at most two packets of the space, which
are open and have data; and none while frames scheduled earlier are waiting. -/
theorem probe_frames (s : State σ) (st : Status) (now : Nat) (e : Epoch) :
    ∃ ps : List Sent, ((s.onPto st now).get e).lostPto = (s.get e).lostPto ++ ps.flatMap Sent.frames ∧ ps.length ≤ 2 ∧
      ps.Sublist (s.get e).sent ∧ (∀ p ∈ ps, p.hasData = true ∧ p.timeAcked = none ∧ p.timeLost = none) ∧
      ((s.get e).lostPto ≠ [] → ps = []) := by
  unfold State.onPto
  dsimp only
  rw [setTimer_get, get_set]
  split
  · rename_i he
    have hg : ({ s with ptoCount := s.ptoCount + 1 } : State σ).get (s.ptoSpace st now) = s.get e := by rw [← he]; cases e <;> rfl
    rw [hg]
    show ∃ ps : List Sent, (s.get e).lostPto ++ probeFrames (Nat.min (s.ptoCount + 1) maxPtoProbes) (s.get e) = _ ∧ _
    unfold probeFrames
    split
    · rename_i h0
      refine ⟨_, rfl, ?_, ?_, ?_, fun h => absurd h0 h⟩
      · have h1 : Nat.min (s.ptoCount + 1) maxPtoProbes ≤ 2 := Nat.min_le_right _ _
        have h2 := List.length_take_le (Nat.min (s.ptoCount + 1) maxPtoProbes) ((s.get e).sent.filter fun p => p.hasData && p.live)
        omega
      · exact (List.take_sublist _ _).trans List.filter_sublist
      · intro p hp
        have := (List.mem_filter.1 (List.mem_of_mem_take hp)).2
        simp [Sent.live] at this
        exact this
    · exact ⟨[], by simp, by simp, List.nil_sublist _, by simp, fun _ => rfl⟩
  · refine ⟨[], ?_, by simp, List.nil_sublist _, by simp, fun _ => rfl⟩
    have hg : ({ s with ptoCount := s.ptoCount + 1 } : State σ).get e = s.get e := by cases e <;> rfl
    rw [hg]; simp

/-- A discarded space is forgotten: it has no loss time, nothing in flight, no frames to send
again and no probes to make. -/
theorem discarded (en : Env σ) (s : State σ) (e : Epoch) (st : Status) (now : Nat) :
    let x := (step en s (.discard e st now)).1.get e
    x.lossTime = none ∧ x.sent = [] ∧ x.inFlightCount = 0 ∧ x.lastEliciting = none ∧ x.lostAck = [] ∧ x.lostPto = [] ∧
      x.ackedFrames = [] ∧ x.lossProbes = 0 := by
  have h : (step en s (.discard e st now)).1.get e = (s.get e).discard := by
    show (s.onDiscard e st now).get e = _
    rw [onDiscard_get, if_pos rfl]
  dsimp only
  rw [h]
  exact ⟨rfl, rfl, rfl, rfl, rfl, rfl, rfl, rfl⟩

/-! ### Concrete -/

/-- A packet sent at 2 ms with the initial RTT of 333 ms: the probe is due 1024 ms later
(333 + 4·166.5 + 25), then after 2048, 4096 and 8192 ms; an ACK restores the first period,
from the new RTT. -/
example :
    let en := trivialEnv
    let dn : Status := ⟨true, true, true⟩
    let sent := (run en s0 [.send .application (data 1) dn 2000000]).1
    (sent.timer, (timeouts en dn sent [1026000000]).timer, (timeouts en dn sent [1026000000, 2050000000]).timer,
      (timeouts en dn sent [1026000000, 2050000000, 4098000000]).timer,
      (timeouts en dn sent [1026000000, 2050000000, 4098000000]).application.lossProbes,
      (run en (timeouts en dn sent [1026000000, 2050000000])
        [.send .application (data 2) dn 2050000000, .ack .application [(2, 3)] 0 dn 2070000000 none]).1.ptoCount) =
    (some 1026000000, some 2050000000, some 4098000000, some 8194000000, 2, 0) := by decide +kernel

end Verif.Props.C86
