import Verif.Bbr.LoInv

/-!
What the modes leave alone: the latest samples, and the losses counted, unless a round is begun
early.
-/

namespace Verif.Bbr

/-- The latest samples as before, and no losses counted. -/
structure Mild (n m : Net) : Prop where
  bw : m.bwLatest = n.bwLatest
  inflight : m.inflightLatest = n.inflightLatest
  lost : m.bytesLost ≤ n.bytesLost

theorem Mild.refl (n : Net) : Mild n n := ⟨rfl, rfl, Nat.le_refl _⟩

theorem Mild.trans {a b c : Net} (h : Mild a b) (k : Mild b c) : Mild a c := ⟨k.bw.trans h.bw, k.inflight.trans h.inflight, Nat.le_trans k.lost h.lost⟩

/-- Other fields changed. -/
macro "mild" : term => `(⟨rfl, rfl, Nat.le_refl _⟩)

theorem restart_mild (n : Net) : Mild n n.restart := ⟨rfl, rfl, Nat.zero_le _⟩

theorem enterDown_mild (p : Params) (n : Net) (y : Cycle) (t r : Bool) (now : Nat) : Mild n (enterDown p n y t r now).1 :=
  ⟨rfl, rfl, Nat.zero_le _⟩

theorem advance_mild (n : Net) : Mild n n.advance := by
  unfold Net.advance
  split
  · exact .refl n
  · exact mild

theorem exitDown_mild (n : Net) (y : Cycle) : Mild n (exitDown n y).1 := by
  unfold exitDown
  split
  · exact advance_mild n
  · exact .refl n

theorem capLo_mild (n : Net) (c : Nat) : Mild n (n.capLo c) := by
  unfold Net.capLo
  split
  · exact mild
  · exact .refl n

theorem enterCruise_mild (n : Net) (y : Cycle) (now : Nat) : Mild n (enterCruise n y now).1 := (exitDown_mild n y).trans (capLo_mild _ _)

theorem enterRefill_mild (n : Net) (y : Cycle) (k now : Nat) : Mild n (enterRefill n y k now).1 :=
  (exitDown_mild n y).trans ⟨rfl, rfl, Nat.zero_le _⟩

theorem raiseSlope_mild (n : Net) (y : Cycle) (c : Nat) : Mild n (raiseSlope n y c).1 := mild

theorem enterUp_mild (n : Net) (y : Cycle) (now c : Nat) : Mild n (enterUp n y now c).1 := ⟨rfl, rfl, Nat.zero_le _⟩

theorem lowerHi_mild (F : Floats) (p : Params) (n : Net) (c : CEvent) (t : Nat) : Mild n (lowerHi F p n c t) := by
  unfold lowerHi
  split
  · exact mild
  · exact .refl n

theorem adaptUpper_mild (F : Floats) (p : Params) (n : Net) (y : Cycle) (c : CEvent) (t : Nat) : Mild n (adaptUpper F p n y c t).2.1 := by
  unfold adaptUpper
  split
  · exact .refl n
  · dsimp only
    split
    · split
      · refine Mild.trans (b := { n with bad := n.bad || (p.deliveredForHi && decide (n.sampler.acked < c.state.acked)) }) mild (lowerHi_mild F p _ c t)
      · exact mild
    · split
      · exact mild
      · exact mild

theorem needWait_mild (n : Net) (y : Cycle) : Mild n (needWait n y) := mild

theorem firstRound_mild (n : Net) (y : Cycle) (c : CEvent) : Mild n (firstRound n y c).1 := by
  unfold firstRound
  dsimp only
  split
  · exact advance_mild n
  · exact .refl n

theorem downRest_mild (F : Floats) (p : Params) (n : Net) (y : Cycle) (c : CEvent) (t : Nat) : Mild n (downRest F p n y c t).1 := by
  have h := (adaptUpper_mild F p n y c t).trans (needWait_mild _ (adaptUpper F p n y c t).2.2)
  unfold downRest
  dsimp only
  split
  · exact h.trans (enterRefill_mild _ _ _ _)
  · split
    · exact h.trans (enterCruise_mild _ _ _)
    · split
      · exact h
      · split
        · exact h.trans (enterCruise_mild _ _ _)
        · exact h

theorem updateDown_mild (F : Floats) (p : Params) (n : Net) (y : Cycle) (c : CEvent) (t : Nat) : Mild n (updateDown F p n y c t).1 := by
  unfold updateDown
  split
  · have h := firstRound_mild n y c
    dsimp only
    split
    · exact h.trans (enterRefill_mild _ _ _ _)
    · exact h.trans (downRest_mild F p _ _ c t)
  · exact downRest_mild F p n y c t

theorem updateCruise_mild (F : Floats) (p : Params) (n : Net) (y : Cycle) (c : CEvent) (t : Nat) : Mild n (updateCruise F p n y c t).1 := by
  have h := (adaptUpper_mild F p n y c t).trans (needWait_mild _ (adaptUpper F p n y c t).2.2)
  unfold updateCruise
  dsimp only
  split
  · exact h.trans (enterRefill_mild _ _ _ _)
  · exact h

theorem updateRefill_mild (F : Floats) (p : Params) (n : Net) (y : Cycle) (c : CEvent) (t : Nat) : Mild n (updateRefill F p n y c t).1 := by
  have h := adaptUpper_mild F p n y c t
  unfold updateRefill
  dsimp only
  split
  · exact h.trans (enterUp_mild _ _ _ _)
  · exact h

theorem growHi_mild (n : Net) (y : Cycle) : Mild n (growHi n y).1 := by
  unfold growHi
  split
  · exact .refl n
  · split
    · exact mild
    · exact .refl n

theorem probeUpward_mild (p : Params) (n : Net) (y : Cycle) (c : CEvent) : Mild n (probeUpward p n y c).1 := by
  unfold probeUpward
  split
  · exact .refl n
  · split
    · exact .refl n
    · split
      · exact .refl n
      · dsimp only
        split
        · exact (growHi_mild _ _).trans (raiseSlope_mild _ _ _)
        · exact growHi_mild _ _

theorem checkQueue_mild (F : Floats) (p : Params) (n : Net) (g : Nat) : Mild n (n.checkQueue F p g) := by
  unfold Net.checkQueue
  split <;> exact mild

theorem upQueue_mild (F : Floats) (p : Params) (n : Net) (y : Cycle) (c : CEvent) : Mild n (upQueue F p n y c).2 := by
  unfold upQueue
  split
  · split
    · split
      · exact checkQueue_mild F p n _
      · exact .refl n
    · exact .refl n
  · exact .refl n

theorem updateUp_mild (F : Floats) (p : Params) (n : Net) (y : Cycle) (c : CEvent) (t : Nat) : Mild n (updateUp F p n y c t).1 := by
  have h := adaptUpper_mild F p n y c t
  unfold updateUp
  dsimp only
  split
  · exact h.trans (enterDown_mild p _ _ _ _ _)
  · have h2 := h.trans (probeUpward_mild p _ (adaptUpper F p n y c t).2.2 c)
    split
    · exact h2.trans (enterDown_mild p _ _ _ _ _)
    · have h3 := h2.trans (upQueue_mild F p _ (probeUpward p (adaptUpper F p n y c t).2.1 (adaptUpper F p n y c t).2.2 c).2 c)
      split
      · exact h3.trans (enterDown_mild p _ _ _ _ _)
      · exact h3

theorem enterProbeBw_mild (p : Params) (n : Net) (y : Cycle) (now : Nat) : Mild n (enterProbeBw p n y now).1 := by
  unfold enterProbeBw
  dsimp only
  split
  · exact enterDown_mild p n _ _ _ _
  · exact enterCruise_mild n _ _
  · exact enterRefill_mild n _ _ _
  · exact .refl n
  · exact .refl n

theorem growth_mild (F : Floats) (p : Params) (n : Net) (c : CEvent) : Mild n (n.growth F p c).2 := by
  unfold Net.growth
  split
  · exact mild
  · split
    · exact .refl n
    · exact mild

theorem checkLosses_mild (F : Floats) (p : Params) (n : Net) (c : CEvent) : Mild n (n.checkLosses F p c) := by
  unfold Net.checkLosses
  split
  · exact mild
  · exact .refl n

theorem startup_mild (F : Floats) (p : Params) (n : Net) (c : CEvent) (x : Option Exit) (cwnd : Nat) : Mild n (onStartup F p n c x cwnd).2.1 := by
  unfold onStartup
  split
  · exact mild
  · split
    · exact .refl n
    · have h1 : Mild n (startupPlateau F p n c x cwnd).2.1 := growth_mild F p n c
      dsimp only
      generalize startupPlateau F p n c x cwnd = g at h1
      have h2 : Mild n (startupQueue F p g.2.1 g.2.2 cwnd g.1).1 := by
        unfold startupQueue
        split
        · exact h1.trans (checkQueue_mild F p _ _)
        · exact h1
      generalize startupQueue F p g.2.1 g.2.2 cwnd g.1 = q at h2
      have h3 : Mild n (startupLoss F p q.1 c q.2 cwnd g.1).1 := by
        unfold startupLoss
        split
        · exact h2.trans (checkLosses_mild F p _ c)
        · exact h2
      generalize startupLoss F p q.1 c q.2 cwnd g.1 = l at h3
      split
      · exact h3.trans mild
      · exact h3

theorem drain_mild (F : Floats) (p : Params) (n : Net) (y : Cycle) (c : CEvent) : Mild n (onDrain F p n y c).2 := by
  unfold onDrain
  dsimp only
  split
  · exact Mild.trans (b := { n with pacingGain := p.drainPacingGain, cwndGain := p.drainCwndGain }) mild (enterProbeBw_mild p _ y c.now)
  · exact mild

theorem probeRtt_mild (F : Floats) (p : Params) (n : Net) (y : Cycle) (e : Option Nat) (c : CEvent) : Mild n (onProbeRtt F p n y e c).2 := by
  unfold onProbeRtt
  split
  · exact .refl n
  · split
    · exact enterProbeBw_mild p n y c.now
    · exact .refl n

theorem expireRtt_mild (p : Params) (n : Net) (c : CEvent) : Mild n (n.expireRtt p c).2 := by
  unfold Net.expireRtt
  split
  · exact .refl n
  · split
    · exact .refl n
    · exact mild

theorem updatePhase_mild (F : Floats) (p : Params) (n : Net) (y : Cycle) (c : CEvent) (t : Nat) : Mild n (updatePhase F p n y c t).2.1 := by
  unfold updatePhase
  cases hz : y.phase with
  | notStarted => exact mild
  | up => exact updateUp_mild F p n y c t
  | cruise => exact updateCruise_mild F p n y c t
  | refill => exact updateRefill_mild F p n y c t
  | down =>
    dsimp only
    have hd := updateDown_mild F p n y c t
    generalize updateDown F p n y c t = d at hd
    split
    · exact hd.trans (expireRtt_mild p d.1 c)
    · exact hd

theorem probeBw_mild (F : Floats) (p : Params) (n : Net) (y : Cycle) (c : CEvent) (t : Nat) : Mild n (onProbeBw F p n y c t).2 := by
  unfold onProbeBw
  have h := updatePhase_mild F p n (countRounds y c) c t
  generalize updatePhase F p n (countRounds y c) c t = u at h
  dsimp only
  split
  · exact h.trans mild
  · exact h.trans mild

theorem doEvent_mild (F : Floats) (p : Params) (b : Bbr) (c : CEvent) : Mild b.net (b.doEvent F p c).net := by
  unfold Bbr.doEvent
  cases hm : b.mode with
  | startup => exact startup_mild F p _ _ _ _
  | drain y => exact drain_mild F p _ _ _
  | probeRtt y e => exact probeRtt_mild F p _ _ _ _
  | probeBw y => exact probeBw_mild F p _ _ _ _

/-- The calls of an event. -/
theorem loop_mild (F : Floats) (p : Params) (c : CEvent) : ∀ (k : Nat) (b : Bbr), Mild b.net (b.loop F p c k).2.net
  | 0, b => .refl _
  | k + 1, b => by
    unfold Bbr.loop
    split
    · exact doEvent_mild F p b c
    · exact (doEvent_mild F p b c).trans (loop_mild F p c k _)

theorem quiet_mild (p : Params) (b : Bbr) (now inFlight : Nat) : Mild b.net (if inFlight = 0 then b.exitQuiet p now else b).net := by
  split
  · unfold Bbr.exitQuiet
    split
    · exact .refl _
    · unfold Bbr.wake
      split
      · exact .refl _
      · exact .refl _
      · exact mild
      · exact enterProbeBw_mild p b.net _ now
      · split
        · exact enterProbeBw_mild p b.net _ now
        · exact .refl _
  · exact .refl _

/-! ### What the start of an event does -/

/-- The start of an event, with the default treatment of losses. -/
structure StartLo (F : Floats) (p : Params) (n : Net) (c : CEvent) (e : EventSample) (d : CEvent) (m : Net) : Prop where
  lost : m.bytesLost = n.bytesLost + d.lost
  bw : m.bwLo = if d.endRound = true ∧ c.probing = false ∧ 0 < m.bytesLost then
      some (max (max n.bwLatest (e.maxBw.getD 0)) (F.mulBw (n.bwLo.getD (max m.maxBw0 m.maxBw1)) (F.comp p.beta))) else n.bwLo
  lo : m.inflightLo = if d.endRound = true ∧ c.probing = false ∧ 0 < m.bytesLost then
      max (max n.inflightLatest e.maxInflight) (F.part (if n.inflightLo = u64Max then c.priorCwnd else n.inflightLo) (F.comp p.beta)) else n.inflightLo
  latest : m.bwLatest = if d.endRound = true then e.maxBw.getD n.bwLatest else max n.bwLatest (e.maxBw.getD 0)
  inflight : m.inflightLatest = if d.endRound = true then (if 0 < e.maxInflight then e.maxInflight else n.inflightLatest) else max n.inflightLatest e.maxInflight

/-- What the lower bounds are made of. -/
structure Parts (n m : Net) : Prop where
  bw : m.bwLo = n.bwLo
  lo : m.inflightLo = n.inflightLo
  latest : m.bwLatest = n.bwLatest
  inflight : m.inflightLatest = n.inflightLatest
  lost : m.bytesLost = n.bytesLost

theorem Parts.refl (n : Net) : Parts n n := ⟨rfl, rfl, rfl, rfl, rfl⟩

theorem Parts.trans {a b c : Net} (h : Parts a b) (k : Parts b c) : Parts a c :=
  ⟨k.1.trans h.1, k.2.trans h.2, k.3.trans h.3, k.4.trans h.4, k.5.trans h.5⟩

theorem eventRound_parts (n : Net) (acked : List Acked) : Parts n (n.eventRound acked).2 := by
  unfold Net.eventRound
  split
  · unfold Net.ackRound
    split
    · split
      · exact .refl n
      · exact ⟨rfl, rfl, rfl, rfl, rfl⟩
    · exact ⟨rfl, rfl, rfl, rfl, rfl⟩
  · exact .refl n

theorem takeBw_parts (n : Net) (e : EventSample) (a : Nat) : Parts n (n.takeBw e a).2 := by
  unfold Net.takeBw
  split
  · exact .refl n
  · split
    · exact .refl n
    · split
      · exact ⟨rfl, rfl, rfl, rfl, rfl⟩
      · exact .refl n

theorem takeRtt_parts (n : Net) (e : EventSample) (now : Nat) : Parts n (n.takeRtt e now) := by
  unfold Net.takeRtt
  split
  · exact .refl n
  · split
    · exact ⟨rfl, rfl, rfl, rfl, rfl⟩
    · exact .refl n

theorem takeDelivered_parts (n : Net) (c : CEvent) : Parts n (n.takeDelivered c) := by
  unfold Net.takeDelivered
  split
  · exact ⟨rfl, rfl, rfl, rfl, rfl⟩
  · exact .refl n

theorem takeLoss_parts (n : Net) (l : Nat) : (n.takeLoss l).bwLo = n.bwLo ∧ (n.takeLoss l).inflightLo = n.inflightLo ∧ (n.takeLoss l).bwLatest = n.bwLatest ∧
    (n.takeLoss l).inflightLatest = n.inflightLatest ∧ (n.takeLoss l).bytesLost = n.bytesLost + l := by
  unfold Net.takeLoss
  split
  · exact ⟨rfl, rfl, rfl, rfl, rfl⟩
  · next h => exact ⟨rfl, rfl, rfl, rfl, by omega⟩

theorem start_lo (F : Floats) (p : Params) (hp : p.loMode = .default) (n : Net) (c : CEvent) (acked : List Acked) (lost : List Lost) :
    StartLo F p n c (n.reported c.now acked lost).1 (n.start F p c acked lost).1 (n.start F p c acked lost).2 := by
  obtain ⟨e1, -⟩ := eventRound_keep n acked
  have hrep : (n.eventRound acked).2.sampler.onEvent c.now acked lost n.maxBw (n.bwLo.getD infinite) (n.eventRound acked).2.rounds = n.reported c.now acked lost := by
    unfold Net.reported; rw [e1]
  unfold Net.start
  dsimp only
  rw [hrep]
  generalize n.reported c.now acked lost = S
  have h0 : Parts n { (n.eventRound acked).2 with sampler := S.2 } := (eventRound_parts n acked).trans ⟨rfl, rfl, rfl, rfl, rfl⟩
  generalize ({ (n.eventRound acked).2 with sampler := S.2 } : Net) = m at h0
  have h1 := h0.trans (takeBw_parts m S.1 n.sampler.acked)
  generalize m.takeBw S.1 n.sampler.acked = B at h1
  have hprob : (c.fill S.1 (n.eventRound acked).1 B.1 (S.2.acked - n.sampler.acked) (S.2.lost - n.sampler.lost)).probing = c.probing := rfl
  have hcw : (c.fill S.1 (n.eventRound acked).1 B.1 (S.2.acked - n.sampler.acked) (S.2.lost - n.sampler.lost)).priorCwnd = c.priorCwnd := rfl
  generalize c.fill S.1 (n.eventRound acked).1 B.1 (S.2.acked - n.sampler.acked) (S.2.lost - n.sampler.lost) = d at hprob hcw
  have h2 := h1.trans (takeRtt_parts B.2 S.1 d.now)
  generalize B.2.takeRtt S.1 d.now = R at h2
  have h3 := takeLoss_parts R d.lost
  generalize R.takeLoss d.lost = L at h3
  have h4 := takeDelivered_parts L d
  generalize L.takeDelivered d = D at h4
  have g1 : D.bwLo = n.bwLo := h4.bw.trans (h3.1.trans h2.bw)
  have g2 : D.inflightLo = n.inflightLo := h4.lo.trans (h3.2.1.trans h2.lo)
  have g3 : D.bwLatest = n.bwLatest := h4.latest.trans (h3.2.2.1.trans h2.latest)
  have g4 : D.inflightLatest = n.inflightLatest := h4.inflight.trans (h3.2.2.2.1.trans h2.inflight)
  have g5 : D.bytesLost = n.bytesLost + d.lost := h4.lost.trans (by rw [h3.2.2.2.2, h2.lost])
  have t1 : (D.takeLatest S.1 d.inFlight).bwLatest = max n.bwLatest (S.1.maxBw.getD 0) := by
    show (if optGt S.1.maxBw (some D.bwLatest) = true then S.1.maxBw.getD 0 else D.bwLatest) = _
    rw [g3]
    cases hb : S.1.maxBw with
    | none => rw [if_neg (fun h => by cases h)]; exact (Nat.max_eq_left (Nat.zero_le _)).symm
    | some x =>
      show (if decide (x > n.bwLatest) = true then x else n.bwLatest) = max n.bwLatest x
      by_cases hx : x > n.bwLatest
      · rw [if_pos (decide_eq_true hx), Nat.max_eq_right (Nat.le_of_lt hx)]
      · rw [if_neg (fun h => hx (of_decide_eq_true h)), Nat.max_eq_left (Nat.le_of_not_lt hx)]
  have t2 : (D.takeLatest S.1 d.inFlight).inflightLatest = max n.inflightLatest S.1.maxInflight := by
    show max D.inflightLatest S.1.maxInflight = _
    rw [g4]
  have t3 : (D.takeLatest S.1 d.inFlight).bwLo = n.bwLo := g1
  have t4 : (D.takeLatest S.1 d.inFlight).inflightLo = n.inflightLo := g2
  have t5 : (D.takeLatest S.1 d.inFlight).bytesLost = n.bytesLost + d.lost := g5
  generalize D.takeLatest S.1 d.inFlight = T at t1 t2 t3 t4 t5
  -- the lower bounds
  have a : (T.adaptLower F p d).bwLatest = T.bwLatest ∧ (T.adaptLower F p d).inflightLatest = T.inflightLatest ∧ (T.adaptLower F p d).bytesLost = T.bytesLost ∧
      (T.adaptLower F p d).maxBw0 = T.maxBw0 ∧ (T.adaptLower F p d).maxBw1 = T.maxBw1 ∧
      (T.adaptLower F p d).bwLo = (if d.endRound = true ∧ c.probing = false ∧ 0 < T.bytesLost then
        some (max T.bwLatest (F.mulBw (T.bwLo.getD (max T.maxBw0 T.maxBw1)) (F.comp p.beta))) else T.bwLo) ∧
      (T.adaptLower F p d).inflightLo = (if d.endRound = true ∧ c.probing = false ∧ 0 < T.bytesLost then
        max T.inflightLatest (F.part (if T.inflightLo = u64Max then c.priorCwnd else T.inflightLo) (F.comp p.beta)) else T.inflightLo) := by
    unfold Net.adaptLower
    rw [if_pos hp, hprob]
    by_cases h : d.endRound = true ∧ c.probing = false
    · rw [if_neg (by rw [h.1, h.2]; exact fun k => by rcases k with k | k <;> cases k)]
      by_cases hb : 0 < T.bytesLost
      · rw [if_pos hb, if_pos ⟨h.1, h.2, hb⟩, if_pos ⟨h.1, h.2, hb⟩]
        unfold Net.lowerDefault
        rw [hcw]
        exact ⟨rfl, rfl, rfl, rfl, rfl, rfl, rfl⟩
      · rw [if_neg hb, if_neg (fun k => hb k.2.2), if_neg (fun k => hb k.2.2)]
        exact ⟨rfl, rfl, rfl, rfl, rfl, rfl, rfl⟩
    · rw [if_pos (by cases h1 : d.endRound <;> cases h2 : c.probing <;> simp_all), if_neg (fun k => h ⟨k.1, k.2.1⟩), if_neg (fun k => h ⟨k.1, k.2.1⟩)]
      exact ⟨rfl, rfl, rfl, rfl, rfl, rfl, rfl⟩
  generalize T.adaptLower F p d = A at a
  obtain ⟨a1, a2, a3, a4, a5, a6, a7⟩ := a
  rw [t1] at a1 a6
  rw [t2] at a2 a7
  rw [t3] at a6
  rw [t4] at a7
  rw [t5] at a3
  rw [← a4, ← a5] at a6
  rw [← t5] at a3
  have hE : (A.endLatest S.1 d.endRound).bwLo = A.bwLo ∧ (A.endLatest S.1 d.endRound).inflightLo = A.inflightLo ∧ (A.endLatest S.1 d.endRound).bytesLost = A.bytesLost ∧
      (A.endLatest S.1 d.endRound).maxBw0 = A.maxBw0 ∧ (A.endLatest S.1 d.endRound).maxBw1 = A.maxBw1 ∧
      (A.endLatest S.1 d.endRound).bwLatest = (if d.endRound = true then S.1.maxBw.getD A.bwLatest else A.bwLatest) ∧
      (A.endLatest S.1 d.endRound).inflightLatest = (if d.endRound = true then (if 0 < S.1.maxInflight then S.1.maxInflight else A.inflightLatest) else A.inflightLatest) := by
    unfold Net.endLatest
    cases d.endRound
    · exact ⟨rfl, rfl, rfl, rfl, rfl, rfl, rfl⟩
    · exact ⟨rfl, rfl, rfl, rfl, rfl, rfl, rfl⟩
  generalize A.endLatest S.1 d.endRound = E at hE
  obtain ⟨b1, b2, b3, b4, b5, b6, b7⟩ := hE
  refine ⟨b3.trans (a3.trans t5), ?_, ?_, ?_, ?_⟩
  · show E.bwLo = if d.endRound = true ∧ c.probing = false ∧ 0 < E.bytesLost then some (max (max n.bwLatest (S.1.maxBw.getD 0)) (F.mulBw (n.bwLo.getD (max E.maxBw0 E.maxBw1)) (F.comp p.beta))) else n.bwLo
    rw [b1, b4, b5, b3, a3]
    exact a6
  · show E.inflightLo = if d.endRound = true ∧ c.probing = false ∧ 0 < E.bytesLost then _ else _
    rw [b2, b3, a3]
    exact a7
  · show E.bwLatest = _
    rw [b6, a1]
    split
    · cases S.1.maxBw with
      | none => exact Nat.max_eq_left (Nat.zero_le _)
      | some x => rfl
    · rfl
  · show E.inflightLatest = _
    rw [b7, a2]
    split
    · split
      · rfl
      · next h => rw [Nat.eq_zero_of_not_pos h]; exact Nat.max_eq_left (Nat.zero_le _)
    · rfl

end Verif.Bbr
