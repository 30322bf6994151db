import Verif.Bbr.Sample

/-!
What the modes of BBR do to the estimates of the network model: the filter of bandwidth is
only moved on, the minimum round trip is only replaced when it expires, and a round is only
begun anew.
-/

namespace Verif.Bbr

/-- A change by the modes that leaves the estimates alone. -/
structure Calm (n m : Net) : Prop where
  rtt : m.minRtt = n.minRtt
  rttAt : m.minRttAt = n.minRttAt
  bw : (m.maxBw0 = n.maxBw0 ∧ m.maxBw1 = n.maxBw1) ∨ (n.maxBw1 ≠ 0 ∧ m.maxBw0 = n.maxBw1 ∧ m.maxBw1 = 0)
  round : m.roundEnd = n.roundEnd ∨ m.roundEnd = some n.lastSent
  last : m.lastSent = n.lastSent
  rounds : m.rounds = n.rounds
  sampler : m.sampler = n.sampler

theorem Calm.refl (n : Net) : Calm n n := ⟨rfl, rfl, Or.inl ⟨rfl, rfl⟩, Or.inl rfl, rfl, rfl, rfl⟩

theorem Calm.trans {a b c : Net} (h : Calm a b) (k : Calm b c) : Calm a c := by
  refine ⟨k.rtt.trans h.rtt, k.rttAt.trans h.rttAt, ?_, ?_, k.last.trans h.last, k.rounds.trans h.rounds, k.sampler.trans h.sampler⟩
  · rcases h.bw with ⟨h1, h2⟩ | ⟨h1, h2, h3⟩
    · rcases k.bw with ⟨k1, k2⟩ | ⟨k1, k2, k3⟩
      · exact Or.inl ⟨k1.trans h1, k2.trans h2⟩
      · exact Or.inr ⟨by rw [← h2]; exact k1, k2.trans h2, k3⟩
    · rcases k.bw with ⟨k1, k2⟩ | ⟨k1, k2, k3⟩
      · exact Or.inr ⟨h1, k1.trans h2, k2.trans h3⟩
      · exact absurd h3 k1
  · rcases k.round with k1 | k1
    · rw [k1]; exact h.round
    · right; rw [k1, h.last]

/-- Other fields changed. -/
macro "calm" : term => `(⟨rfl, rfl, Or.inl ⟨rfl, rfl⟩, Or.inl rfl, rfl, rfl, rfl⟩)

theorem restart_calm (n : Net) : Calm n n.restart := ⟨rfl, rfl, Or.inl ⟨rfl, rfl⟩, Or.inr rfl, rfl, rfl, rfl⟩

theorem enterDown_calm (p : Params) (n : Net) (y : Cycle) (t r : Bool) (now : Nat) : Calm n (enterDown p n y t r now).1 :=
  ⟨rfl, rfl, Or.inl ⟨rfl, rfl⟩, Or.inr rfl, rfl, rfl, rfl⟩

theorem advance_calm (n : Net) : Calm n n.advance := by
  unfold Net.advance
  split
  · exact .refl n
  · next h => exact ⟨rfl, rfl, Or.inr ⟨h, rfl, rfl⟩, Or.inl rfl, rfl, rfl, rfl⟩

theorem exitDown_calm (n : Net) (y : Cycle) : Calm n (exitDown n y).1 := by
  unfold exitDown
  split
  · exact advance_calm n
  · exact .refl n

theorem capLo_calm (n : Net) (c : Nat) : Calm n (n.capLo c) := by
  unfold Net.capLo
  split
  · exact calm
  · exact .refl n

theorem enterCruise_calm (n : Net) (y : Cycle) (now : Nat) : Calm n (enterCruise n y now).1 := (exitDown_calm n y).trans (capLo_calm _ _)

theorem enterRefill_calm (n : Net) (y : Cycle) (k now : Nat) : Calm n (enterRefill n y k now).1 :=
  (exitDown_calm n y).trans ⟨rfl, rfl, Or.inl ⟨rfl, rfl⟩, Or.inr rfl, rfl, rfl, rfl⟩

theorem raiseSlope_calm (n : Net) (y : Cycle) (c : Nat) : Calm n (raiseSlope n y c).1 := calm

theorem enterUp_calm (n : Net) (y : Cycle) (now c : Nat) : Calm n (enterUp n y now c).1 := ⟨rfl, rfl, Or.inl ⟨rfl, rfl⟩, Or.inr rfl, rfl, rfl, rfl⟩

theorem lowerHi_calm (F : Floats) (p : Params) (n : Net) (c : CEvent) (t : Nat) : Calm n (lowerHi F p n c t) := by
  unfold lowerHi
  split
  · exact calm
  · exact .refl n

theorem adaptUpper_calm (F : Floats) (p : Params) (n : Net) (y : Cycle) (c : CEvent) (t : Nat) : Calm n (adaptUpper F p n y c t).2.1 := by
  unfold adaptUpper
  split
  · exact .refl n
  · dsimp only
    split
    · split
      · refine Calm.trans (b := { n with bad := n.bad || (p.deliveredForHi && decide (n.sampler.acked < c.state.acked)) }) calm (lowerHi_calm F p _ c t)
      · exact calm
    · split
      · exact calm
      · exact calm

theorem needWait_calm (n : Net) (y : Cycle) : Calm n (needWait n y) := calm

theorem firstRound_calm (n : Net) (y : Cycle) (c : CEvent) : Calm n (firstRound n y c).1 := by
  unfold firstRound
  dsimp only
  split
  · exact advance_calm n
  · exact .refl n

theorem downRest_calm (F : Floats) (p : Params) (n : Net) (y : Cycle) (c : CEvent) (t : Nat) : Calm n (downRest F p n y c t).1 := by
  have h := (adaptUpper_calm F p n y c t).trans (needWait_calm _ (adaptUpper F p n y c t).2.2)
  unfold downRest
  dsimp only
  split
  · exact h.trans (enterRefill_calm _ _ _ _)
  · split
    · exact h.trans (enterCruise_calm _ _ _)
    · split
      · exact h
      · split
        · exact h.trans (enterCruise_calm _ _ _)
        · exact h

theorem updateDown_calm (F : Floats) (p : Params) (n : Net) (y : Cycle) (c : CEvent) (t : Nat) : Calm n (updateDown F p n y c t).1 := by
  unfold updateDown
  split
  · have h := firstRound_calm n y c
    dsimp only
    split
    · exact h.trans (enterRefill_calm _ _ _ _)
    · exact h.trans (downRest_calm F p _ _ c t)
  · exact downRest_calm F p n y c t

theorem updateCruise_calm (F : Floats) (p : Params) (n : Net) (y : Cycle) (c : CEvent) (t : Nat) : Calm n (updateCruise F p n y c t).1 := by
  have h := (adaptUpper_calm F p n y c t).trans (needWait_calm _ (adaptUpper F p n y c t).2.2)
  unfold updateCruise
  dsimp only
  split
  · exact h.trans (enterRefill_calm _ _ _ _)
  · exact h

theorem updateRefill_calm (F : Floats) (p : Params) (n : Net) (y : Cycle) (c : CEvent) (t : Nat) : Calm n (updateRefill F p n y c t).1 := by
  have h := adaptUpper_calm F p n y c t
  unfold updateRefill
  dsimp only
  split
  · exact h.trans (enterUp_calm _ _ _ _)
  · exact h

theorem growHi_calm (n : Net) (y : Cycle) : Calm n (growHi n y).1 := by
  unfold growHi
  split
  · exact .refl n
  · split
    · exact calm
    · exact .refl n

theorem probeUpward_calm (p : Params) (n : Net) (y : Cycle) (c : CEvent) : Calm n (probeUpward p n y c).1 := by
  unfold probeUpward
  split
  · exact .refl n
  · split
    · exact .refl n
    · split
      · exact .refl n
      · dsimp only
        split
        · exact (growHi_calm _ _).trans (raiseSlope_calm _ _ _)
        · exact growHi_calm _ _

theorem checkQueue_calm (F : Floats) (p : Params) (n : Net) (g : Nat) : Calm n (n.checkQueue F p g) := by
  unfold Net.checkQueue
  split <;> exact calm

theorem upQueue_calm (F : Floats) (p : Params) (n : Net) (y : Cycle) (c : CEvent) : Calm n (upQueue F p n y c).2 := by
  unfold upQueue
  split
  · split
    · split
      · exact checkQueue_calm F p n _
      · exact .refl n
    · exact .refl n
  · exact .refl n

theorem updateUp_calm (F : Floats) (p : Params) (n : Net) (y : Cycle) (c : CEvent) (t : Nat) : Calm n (updateUp F p n y c t).1 := by
  have h := adaptUpper_calm F p n y c t
  unfold updateUp
  dsimp only
  split
  · exact h.trans (enterDown_calm p _ _ _ _ _)
  · have h2 := h.trans (probeUpward_calm p _ (adaptUpper F p n y c t).2.2 c)
    split
    · exact h2.trans (enterDown_calm p _ _ _ _ _)
    · have h3 := h2.trans (upQueue_calm F p _ (probeUpward p (adaptUpper F p n y c t).2.1 (adaptUpper F p n y c t).2.2 c).2 c)
      split
      · exact h3.trans (enterDown_calm p _ _ _ _ _)
      · exact h3

theorem enterProbeBw_calm (p : Params) (n : Net) (y : Cycle) (now : Nat) : Calm n (enterProbeBw p n y now).1 := by
  unfold enterProbeBw
  dsimp only
  split
  · exact enterDown_calm p n _ _ _ _
  · exact enterCruise_calm n _ _
  · exact enterRefill_calm n _ _ _
  · exact .refl n
  · exact .refl n

theorem growth_calm (F : Floats) (p : Params) (n : Net) (c : CEvent) : Calm n (n.growth F p c).2 := by
  unfold Net.growth
  split
  · exact calm
  · split
    · exact .refl n
    · exact calm

theorem checkLosses_calm (F : Floats) (p : Params) (n : Net) (c : CEvent) : Calm n (n.checkLosses F p c) := by
  unfold Net.checkLosses
  split
  · exact calm
  · exact .refl n

theorem startup_calm (F : Floats) (p : Params) (n : Net) (c : CEvent) (x : Option Exit) (cwnd : Nat) : Calm n (onStartup F p n c x cwnd).2.1 := by
  unfold onStartup
  split
  · exact calm
  · split
    · exact .refl n
    · have h1 : Calm n (startupPlateau F p n c x cwnd).2.1 := growth_calm F p n c
      dsimp only
      generalize startupPlateau F p n c x cwnd = g at h1
      have h2 : Calm n (startupQueue F p g.2.1 g.2.2 cwnd g.1).1 := by
        unfold startupQueue
        split
        · exact h1.trans (checkQueue_calm F p _ _)
        · exact h1
      generalize startupQueue F p g.2.1 g.2.2 cwnd g.1 = q at h2
      have h3 : Calm n (startupLoss F p q.1 c q.2 cwnd g.1).1 := by
        unfold startupLoss
        split
        · exact h2.trans (checkLosses_calm F p _ c)
        · exact h2
      generalize startupLoss F p q.1 c q.2 cwnd g.1 = l at h3
      split
      · exact h3.trans calm
      · exact h3

theorem drain_calm (F : Floats) (p : Params) (n : Net) (y : Cycle) (c : CEvent) : Calm n (onDrain F p n y c).2 := by
  unfold onDrain
  dsimp only
  split
  · exact Calm.trans (b := { n with pacingGain := p.drainPacingGain, cwndGain := p.drainCwndGain }) calm (enterProbeBw_calm p _ y c.now)
  · exact calm

theorem probeRtt_calm (F : Floats) (p : Params) (n : Net) (y : Cycle) (e : Option Nat) (c : CEvent) : Calm n (onProbeRtt F p n y e c).2 := by
  unfold onProbeRtt
  split
  · exact .refl n
  · split
    · exact enterProbeBw_calm p n y c.now
    · exact .refl n

theorem expireRtt_calm (p : Params) (n : Net) (c : CEvent) :
    (n.expireRtt p c = (false, n)) ∨
    ∃ r, c.rtt = some r ∧ n.minRttAt + p.rttPeriod ≤ c.now ∧ n.expireRtt p c = (true, { n with minRtt := r, minRttAt := c.now }) := by
  unfold Net.expireRtt
  cases hr : c.rtt with
  | none => exact Or.inl rfl
  | some r =>
    dsimp only
    by_cases ht : c.now < n.minRttAt + p.rttPeriod
    · rw [if_pos ht]; exact Or.inl rfl
    · rw [if_neg ht]; exact Or.inr ⟨r, rfl, by omega, rfl⟩

theorem updatePhase_calm (F : Floats) (p : Params) (n : Net) (y : Cycle) (c : CEvent) (t : Nat) :
    ((updatePhase F p n y c t).1 = false ∧ Calm n (updatePhase F p n y c t).2.1) ∨
    ∃ m r z, Calm n m ∧ c.rtt = some r ∧ n.minRttAt + p.rttPeriod ≤ c.now ∧
      updatePhase F p n y c t = (true, { m with minRtt := r, minRttAt := c.now }, z) := by
  unfold updatePhase
  cases hz : y.phase with
  | notStarted => exact Or.inl ⟨rfl, calm⟩
  | up => exact Or.inl ⟨rfl, updateUp_calm F p n y c t⟩
  | cruise => exact Or.inl ⟨rfl, updateCruise_calm F p n y c t⟩
  | refill => exact Or.inl ⟨rfl, updateRefill_calm F p n y c t⟩
  | down =>
    dsimp only
    have hd := updateDown_calm F p n y c t
    generalize updateDown F p n y c t = d at hd
    by_cases hp : d.2.phase ≠ .down
    · rw [if_pos hp]
      rcases expireRtt_calm p d.1 c with h | ⟨r, h1, h2, h3⟩
      · rw [h]; exact Or.inl ⟨rfl, hd⟩
      · rw [h3]
        exact Or.inr ⟨_, r, _, hd, h1, by rw [← hd.rttAt]; exact h2, rfl⟩
    · rw [if_neg hp]; exact Or.inl ⟨rfl, hd⟩

/-- ProbeBW: the minimum round trip is replaced on the way to ProbeRTT, if it has expired, by the one measured now. -/
theorem probeBw_calm (F : Floats) (p : Params) (n : Net) (y : Cycle) (c : CEvent) (t : Nat) :
    Calm n (onProbeBw F p n y c t).2 ∨
    ∃ m r z, Calm n m ∧ c.rtt = some r ∧ n.minRttAt + p.rttPeriod ≤ c.now ∧
      onProbeBw F p n y c t = enterProbeRtt p { m with minRtt := r, minRttAt := c.now } z := by
  unfold onProbeBw
  have h := updatePhase_calm F p n (countRounds y c) c t
  generalize updatePhase F p n (countRounds y c) c t = u at h
  rcases h with ⟨h1, h2⟩ | ⟨m, r, z, h1, h2, h3, h4⟩
  · dsimp only
    rw [h1, if_neg (by decide)]
    exact Or.inl (h2.trans calm)
  · rw [h4]
    exact Or.inr ⟨m, r, z, h1, h2, h3, rfl⟩

/-- One call of a mode. -/
theorem doEvent_calm (F : Floats) (p : Params) (b : Bbr) (c : CEvent) :
    Calm b.net (b.doEvent F p c).net ∨
    ∃ m r y, Calm b.net m ∧ c.rtt = some r ∧ b.net.minRttAt + p.rttPeriod ≤ c.now ∧ (b.doEvent F p c).mode = .probeRtt y none ∧ b.mode.kind = 2 ∧
      (b.doEvent F p c).net = { m with minRtt := r, minRttAt := c.now, pacingGain := p.rttPacingGain, cwndGain := p.rttCwndGain } := by
  unfold Bbr.doEvent
  cases hm : b.mode with
  | startup => exact Or.inl (startup_calm F p _ _ _ _)
  | drain y => exact Or.inl (drain_calm F p _ _ _)
  | probeRtt y e => exact Or.inl (probeRtt_calm F p _ _ _ _)
  | probeBw y =>
    dsimp only
    rcases probeBw_calm F p b.net y c (b.target F) with h | ⟨m, r, z, h1, h2, h3, h4⟩
    · exact Or.inl h
    · refine Or.inr ⟨m, r, z, h1, h2, h3, ?_, rfl, ?_⟩
      · rw [h4]; rfl
      · rw [h4]; rfl

/-- What the calls of an event do: nothing to the estimates, or the minimum round trip is replaced at the end. -/
def Ended (p : Params) (c : CEvent) (b b' : Bbr) : Prop :=
  Calm b.net b'.net ∨
  ∃ m r y e, Calm b.net m ∧ c.rtt = some r ∧ b.net.minRttAt + p.rttPeriod ≤ c.now ∧ b'.mode = .probeRtt y e ∧
    b'.net = { m with minRtt := r, minRttAt := c.now, pacingGain := p.rttPacingGain, cwndGain := p.rttCwndGain }

theorem loop_calm (F : Floats) (p : Params) (c : CEvent) : ∀ (k : Nat) (b : Bbr), Ended p c b (b.loop F p c k).2
  | 0, b => Or.inl (.refl _)
  | k + 1, b => by
    unfold Bbr.loop
    rcases doEvent_calm F p b c with h | ⟨m, r, y, h1, h2, h3, h4, h5, h6⟩
    · split
      · exact Or.inl h
      · rcases loop_calm F p c k (b.doEvent F p c) with g | ⟨m, r, y, e, g1, g2, g3, g4, g5⟩
        · exact Or.inl (h.trans g)
        · exact Or.inr ⟨m, r, y, e, h.trans g1, g2, by rw [← h.rttAt]; exact g3, g4, g5⟩
    · split
      · exact Or.inr ⟨m, r, y, none, h1, h2, h3, h4, h6⟩
      · -- ProbeRTT stays in the next call, if there is one
        cases k with
        | zero => exact Or.inr ⟨m, r, y, none, h1, h2, h3, h4, h6⟩
        | succ k =>
          have hd : (b.doEvent F p c).doEvent F p c = { b.doEvent F p c with mode := (onProbeRtt F p (b.doEvent F p c).net y none c).1 } := by
            generalize b.doEvent F p c = d at h4
            unfold Bbr.doEvent
            rw [h4]
            rfl
          unfold Bbr.loop
          rw [if_pos (by rw [hd, h4]; rfl), hd]
          exact Or.inr ⟨m, r, y, _, h1, h2, h3, rfl, h6⟩

/-! ### What the start of an event learns -/

/-- The estimates left alone. -/
structure Est (n m : Net) : Prop where
  rtt : m.minRtt = n.minRtt
  rttAt : m.minRttAt = n.minRttAt
  bw0 : m.maxBw0 = n.maxBw0
  bw1 : m.maxBw1 = n.maxBw1

theorem Est.refl (n : Net) : Est n n := ⟨rfl, rfl, rfl, rfl⟩

theorem Est.trans {a b c : Net} (h : Est a b) (k : Est b c) : Est a c := ⟨k.1.trans h.1, k.2.trans h.2, k.3.trans h.3, k.4.trans h.4⟩

theorem eventRound_est (n : Net) (acked : List Acked) : Est n (n.eventRound acked).2 := by
  unfold Net.eventRound
  split
  · unfold Net.ackRound
    split
    · split
      · exact .refl n
      · exact ⟨rfl, rfl, rfl, rfl⟩
    · exact ⟨rfl, rfl, rfl, rfl⟩
  · exact .refl n

theorem takeLoss_est (n : Net) (l : Nat) : Est n (n.takeLoss l) := by
  unfold Net.takeLoss
  split
  · exact ⟨rfl, rfl, rfl, rfl⟩
  · exact .refl n

theorem takeDelivered_est (n : Net) (c : CEvent) : Est n (n.takeDelivered c) := by
  unfold Net.takeDelivered
  split
  · exact ⟨rfl, rfl, rfl, rfl⟩
  · exact .refl n

theorem adaptLower_est (F : Floats) (p : Params) (n : Net) (c : CEvent) : Est n (n.adaptLower F p c) := by
  unfold Net.adaptLower
  split
  · split
    · exact .refl n
    · split
      · exact ⟨rfl, rfl, rfl, rfl⟩
      · exact .refl n
  · split
    · exact .refl n
    · split
      · exact .refl n
      · unfold Net.lowerOther
        dsimp only
        split <;> exact ⟨rfl, rfl, rfl, rfl⟩

theorem takeLatest_est (n : Net) (e : EventSample) (f : Nat) : Est n (n.takeLatest e f) := ⟨rfl, rfl, rfl, rfl⟩

theorem endLatest_est (n : Net) (e : EventSample) (r : Bool) : Est n (n.endLatest e r) := by
  unfold Net.endLatest
  split
  · exact .refl n
  · exact ⟨rfl, rfl, rfl, rfl⟩

/-- What an event's report does to the estimates. -/
structure Learned (n : Net) (now : Nat) (rep : EventSample × Sampler) (m : Net) : Prop where
  rtt : (m.minRtt = n.minRtt ∧ m.minRttAt = n.minRttAt ∧ ∀ r, rep.1.rtt = some r → n.minRtt ≤ r) ∨
    (rep.1.rtt = some m.minRtt ∧ m.minRtt < n.minRtt ∧ m.minRttAt = now)
  bw0 : m.maxBw0 = n.maxBw0
  bw1 : m.maxBw1 = n.maxBw1 ∨ ∃ b, rep.1.maxBw = some b ∧ m.maxBw1 = max n.maxBw1 b ∧ (rep.1.appLimited = false ∨ b > n.maxBw)
  got : ∀ b, rep.1.maxBw = some b → rep.2.acked ≠ n.sampler.acked → rep.1.appLimited = false → b ≤ m.maxBw1

theorem start_learned (F : Floats) (p : Params) (n : Net) (c : CEvent) (acked : List Acked) (lost : List Lost) :
    Learned n c.now (n.reported c.now acked lost) (n.start F p c acked lost).2 := by
  obtain ⟨e1, -⟩ := eventRound_keep n acked
  have hrep : (n.eventRound acked).2.sampler.onEvent c.now acked lost n.maxBw (n.bwLo.getD infinite) (n.eventRound acked).2.rounds = n.reported c.now acked lost := by
    unfold Net.reported; rw [e1]
  unfold Net.start
  dsimp only
  rw [hrep]
  generalize n.reported c.now acked lost = S
  have h0 : Est n { (n.eventRound acked).2 with sampler := S.2 } := ⟨(eventRound_est n acked).rtt, (eventRound_est n acked).rttAt, (eventRound_est n acked).bw0, (eventRound_est n acked).bw1⟩
  have h1 : (({ (n.eventRound acked).2 with sampler := S.2 } : Net).sampler) = S.2 := rfl
  generalize ({ (n.eventRound acked).2 with sampler := S.2 } : Net) = m at h0 h1
  have hb : (m.takeBw S.1 n.sampler.acked).2.minRtt = n.minRtt ∧ (m.takeBw S.1 n.sampler.acked).2.minRttAt = n.minRttAt ∧
      (m.takeBw S.1 n.sampler.acked).2.maxBw0 = n.maxBw0 ∧
      ((m.takeBw S.1 n.sampler.acked).2.maxBw1 = n.maxBw1 ∨
        ∃ b, S.1.maxBw = some b ∧ (m.takeBw S.1 n.sampler.acked).2.maxBw1 = max n.maxBw1 b ∧ (S.1.appLimited = false ∨ b > n.maxBw)) ∧
      (∀ b, S.1.maxBw = some b → S.2.acked ≠ n.sampler.acked → S.1.appLimited = false → b ≤ (m.takeBw S.1 n.sampler.acked).2.maxBw1) := by
    unfold Net.takeBw
    rw [h1]
    cases hx : S.1.maxBw with
    | none => exact ⟨h0.rtt, h0.rttAt, h0.bw0, Or.inl h0.bw1, fun b hb => by cases hb⟩
    | some b =>
      dsimp only
      by_cases ha : n.sampler.acked = S.2.acked
      · rw [if_pos ha]
        exact ⟨h0.rtt, h0.rttAt, h0.bw0, Or.inl h0.bw1, fun b _ hn => absurd ha.symm hn⟩
      · rw [if_neg ha]
        have hm : m.maxBw = n.maxBw := by unfold Net.maxBw; rw [h0.bw0, h0.bw1]
        by_cases hl : S.1.appLimited = false ∨ b > m.maxBw
        · rw [if_pos hl]
          refine ⟨h0.rtt, h0.rttAt, h0.bw0, Or.inr ⟨b, rfl, ?_, hm ▸ hl⟩, ?_⟩
          · show max m.maxBw1 b = max n.maxBw1 b
            rw [h0.bw1]
          · intro b' hb' _ _
            cases hb'
            exact Nat.le_max_right _ _
        · rw [if_neg hl]
          exact ⟨h0.rtt, h0.rttAt, h0.bw0, Or.inl h0.bw1, fun b' _ _ hf => absurd (Or.inl hf) hl⟩
  generalize m.takeBw S.1 n.sampler.acked = B at hb
  obtain ⟨b1, b2, b3, b4, b5⟩ := hb
  generalize hc : c.fill S.1 (n.eventRound acked).1 B.1 (S.2.acked - n.sampler.acked) (S.2.lost - n.sampler.lost) = d
  have hnow : d.now = c.now := by rw [← hc]; rfl
  have k := ((((takeLoss_est (B.2.takeRtt S.1 d.now) d.lost).trans (takeDelivered_est _ d)).trans (takeLatest_est _ S.1 d.inFlight)).trans
    (adaptLower_est F p _ d)).trans (endLatest_est _ S.1 d.endRound)
  generalize Net.endLatest _ S.1 d.endRound = u at k
  obtain ⟨k1, k2, k3, k4⟩ := k
  rw [hnow] at k1 k2 k3 k4
  unfold Net.takeRtt at k1 k2 k3 k4
  cases hr : S.1.rtt with
  | none =>
    rw [hr] at k1 k2 k3 k4
    refine ⟨Or.inl ⟨k1.trans b1, k2.trans b2, fun r h => ?_⟩, k3.trans b3, ?_, ?_⟩
    · rw [hr] at h; cases h
    · show u.maxBw1 = _ ∨ _
      rw [k4]; exact b4
    · show ∀ b, _ → _ → _ → b ≤ u.maxBw1
      rw [k4]; exact b5
  | some r =>
    rw [hr] at k1 k2 k3 k4
    dsimp only at k1 k2 k3 k4
    by_cases hlt : r < B.2.minRtt
    · rw [if_pos hlt] at k1 k2 k3 k4
      refine ⟨Or.inr ⟨?_, ?_, k2⟩, k3.trans b3, ?_, ?_⟩
      · rw [hr]; exact congrArg some k1.symm
      · show u.minRtt < _
        rw [k1, ← b1]; exact hlt
      · show u.maxBw1 = _ ∨ ∃ b, _ ∧ u.maxBw1 = _ ∧ _
        rw [k4]; exact b4
      · show ∀ b, _ → _ → _ → b ≤ u.maxBw1
        rw [k4]; exact b5
    · rw [if_neg hlt] at k1 k2 k3 k4
      refine ⟨Or.inl ⟨k1.trans b1, k2.trans b2, fun r' h => ?_⟩, k3.trans b3, ?_, ?_⟩
      · rw [hr] at h; cases h; omega
      · show u.maxBw1 = _ ∨ ∃ b, _ ∧ u.maxBw1 = _ ∧ _
        rw [k4]; exact b4
      · show ∀ b, _ → _ → _ → b ≤ u.maxBw1
        rw [k4]; exact b5

/-- The state after an event, from that after its start. -/
theorem event_ended (F : Floats) (p : Params) (b : Bbr) (now inFlight : Nat) (acked : List Acked) (lost : List Lost) (least : Nat) :
    Ended p (b.net.start F p (.new now b.cwnd inFlight b.mode.probing) acked lost).1
      { b with net := (b.net.start F p (.new now b.cwnd inFlight b.mode.probing) acked lost).2 } (b.moded F p now inFlight acked lost).2 :=
  loop_calm F p _ _ _

theorem finish_est (n : Net) (c : CEvent) (least : Nat) : Est n (n.finish c least) ∧ (n.finish c least).roundEnd = n.roundEnd := by
  unfold Net.finish
  dsimp only
  split <;> exact ⟨⟨rfl, rfl, rfl, rfl⟩, rfl⟩

/-! ### Coming out of quiescence -/

/-- A step that learns nothing. -/
structure Woken (n m : Net) : Prop where
  rtt : m.minRtt = n.minRtt
  rttAt : n.minRttAt ≤ m.minRttAt
  bw : (m.maxBw0 = n.maxBw0 ∧ m.maxBw1 = n.maxBw1) ∨ (n.maxBw1 ≠ 0 ∧ m.maxBw0 = n.maxBw1 ∧ m.maxBw1 = 0)
  round : m.roundEnd = n.roundEnd ∨ m.roundEnd = some n.lastSent
  last : m.lastSent = n.lastSent
  rounds : m.rounds = n.rounds
  sampler : m.sampler = n.sampler

theorem Woken.refl (n : Net) : Woken n n := ⟨rfl, Nat.le_refl _, Or.inl ⟨rfl, rfl⟩, Or.inl rfl, rfl, rfl, rfl⟩

theorem Calm.woken {n m : Net} (h : Calm n m) : Woken n m := ⟨h.rtt, Nat.le_of_eq h.rttAt.symm, h.bw, h.round, h.last, h.rounds, h.sampler⟩

theorem wake_woken (p : Params) (b : Bbr) (now since : Nat) : Woken b.net (b.wake p now since).net := by
  unfold Bbr.wake
  split
  · exact .refl _
  · exact .refl _
  · exact ⟨rfl, Nat.le_add_right _ _, Or.inl ⟨rfl, rfl⟩, Or.inl rfl, rfl, rfl, rfl⟩
  · exact (enterProbeBw_calm p _ _ _).woken
  · split
    · exact (enterProbeBw_calm p _ _ _).woken
    · exact .refl _

theorem quiet_woken (p : Params) (b : Bbr) (now inFlight : Nat) : Woken b.net (if inFlight = 0 then b.exitQuiet p now else b).net := by
  split
  · unfold Bbr.exitQuiet
    split
    · exact .refl _
    · next t _ => exact wake_woken p { b with quiet := none } now t
  · exact .refl _

end Verif.Bbr
