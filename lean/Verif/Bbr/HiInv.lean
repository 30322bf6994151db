import Verif.Bbr.CycleInv

/-!
The upper bound on the bytes in flight: who moves it, and why.
-/

namespace Verif.Bbr

/-- The bound is raised to `D` at most, and not lowered. -/
def Grow (D : Nat) (n m : Net) : Prop := n.inflightHi ≤ m.inflightHi ∧ m.inflightHi ≤ max n.inflightHi D

theorem Grow.eq {D : Nat} {n m : Net} (h : m.inflightHi = n.inflightHi) : Grow D n m := ⟨Nat.le_of_eq h.symm, by rw [h]; exact Nat.le_max_left _ _⟩

theorem Grow.same {D : Nat} {a b c : Net} (h : Grow D a b) (k : c.inflightHi = b.inflightHi) : Grow D a c := by
  unfold Grow; rw [k]; exact h

theorem Grow.before {D : Nat} {a b c : Net} (h : b.inflightHi = a.inflightHi) (k : Grow D b c) : Grow D a c := by
  unfold Grow at k; rw [h] at k; exact k

/-- The bound after too many losses in probing. -/
def cutTo (F : Floats) (p : Params) (n : Net) (c : CEvent) (t : Nat) : Nat :=
  if p.limitHiByDelivered = true then max n.maxDelivered (max (atSend p n c) (F.part t (F.comp p.beta))) else max (atSend p n c) (F.part t (F.comp p.beta))

/-- Too many losses in probing. -/
def Cut (F : Floats) (p : Params) (n : Net) (c : CEvent) (t hi : Nat) : Prop :=
  n.tooHigh F p c p.probeLossCount = true ∧
  (hi = n.inflightHi ∨ ((c.state.appLimited = false ∨ p.upQueueRounds > 0) ∧ hi = cutTo F p n c t))

/-- What a cut looks at. -/
structure Look (n m : Net) : Prop where
  hi : m.inflightHi = n.inflightHi
  events : m.lossEvents = n.lossEvents
  lost : m.bytesLost = n.bytesLost
  most : m.maxDelivered = n.maxDelivered
  sampler : m.sampler = n.sampler

theorem Look.refl (n : Net) : Look n n := ⟨rfl, rfl, rfl, rfl, rfl⟩

theorem Look.atSend {n m : Net} (h : Look n m) (p : Params) (c : CEvent) : Bbr.atSend p m c = Bbr.atSend p n c := by
  unfold Bbr.atSend; rw [h.sampler]

theorem Look.tooHigh {n m : Net} (h : Look n m) (F : Floats) (p : Params) (c : CEvent) (k : Nat) : m.tooHigh F p c k = n.tooHigh F p c k := by
  unfold Net.tooHigh; rw [h.events, h.lost]

theorem Look.cut {n m : Net} (h : Look n m) {F : Floats} {p : Params} {c : CEvent} {t hi : Nat} (k : Cut F p m c t hi) : Cut F p n c t hi := by
  unfold Cut cutTo at *
  rw [h.tooHigh, h.hi, h.atSend, h.most] at k
  exact k

/-- The adaptation of the bound. -/
theorem adaptUpper_hi (F : Floats) (p : Params) (n : Net) (y : Cycle) (c : CEvent) (t : Nat) :
    ((adaptUpper F p n y c t).1 ≠ .tooHigh ∧ Grow (atSend p n c) n (adaptUpper F p n y c t).2.1 ∧ (adaptUpper F p n y c t).2.2 = y ∧
      (y.fromProbing = true → (adaptUpper F p n y c t).2.1.inflightHi = n.inflightHi)) ∨
    ((adaptUpper F p n y c t).1 = .tooHigh ∧ y.fromProbing = true ∧ Cut F p n c t (adaptUpper F p n y c t).2.1.inflightHi ∧
      (adaptUpper F p n y c t).2.2 = { y with fromProbing := false }) := by
  unfold adaptUpper
  split
  · exact Or.inl ⟨(fun h => by cases h), .eq rfl, rfl, fun _ => rfl⟩
  · dsimp only
    split
    · next hp =>
      split
      · next ht =>
        refine Or.inr ⟨rfl, hp, ⟨ht, ?_⟩, rfl⟩
        unfold lowerHi
        split
        · next hl => exact Or.inr ⟨hl, rfl⟩
        · exact Or.inl rfl
      · exact Or.inl ⟨(fun h => by cases h), .eq rfl, rfl, fun _ => rfl⟩
    · next hp =>
      split
      · exact Or.inl ⟨(fun h => by cases h), .eq rfl, rfl, fun h => absurd h hp⟩
      · exact Or.inl ⟨(fun h => by cases h), ⟨Nat.le_max_left _ _, Nat.le_refl _⟩, rfl, fun h => absurd h hp⟩

/-- Losses are laid to probing until the end of the first round after it. -/
def Prob (y : Cycle) : Prop := y.fromProbing = true → y.phase = .up ∨ (y.phase = .down ∧ y.rounds = 0)

/-- The window was full, and up to the bound. -/
def Full (p : Params) (n : Net) (y : Cycle) (c : CEvent) : Prop :=
  y.phase = .up ∧ p.ignoreHi = false ∧ c.priorCwnd ≤ c.priorInFlight ∧ n.inflightHi ≤ c.priorCwnd

/-- What a phase does to the bound. -/
structure Hi (F : Floats) (p : Params) (c : CEvent) (t : Nat) (n : Net) (y : Cycle) (r : Net × Cycle) : Prop where
  hi : Grow (atSend p n c) n r.1 ∨ (y.fromProbing = true ∧ Cut F p n c t r.1.inflightHi) ∨ (Full p n y c ∧ n.inflightHi ≤ r.1.inflightHi)
  prob : Prob r.2

theorem exitDown_hi (n : Net) (y : Cycle) : (exitDown n y).1.inflightHi = n.inflightHi := by
  unfold exitDown
  split
  · unfold Net.advance
    split <;> rfl
  · rfl

theorem enterCruise_hi (n : Net) (y : Cycle) (now : Nat) : (enterCruise n y now).1.inflightHi = n.inflightHi ∧ (enterCruise n y now).2.fromProbing = false := by
  have h := exitDown_hi n y
  unfold enterCruise
  dsimp only
  refine ⟨?_, rfl⟩
  unfold Net.capLo
  split <;> exact h

theorem enterRefill_hi (n : Net) (y : Cycle) (k now : Nat) :
    (enterRefill n y k now).1.inflightHi = n.inflightHi ∧ (enterRefill n y k now).2.fromProbing = false :=
  ⟨exitDown_hi n y, rfl⟩

theorem Prob.of {y : Cycle} (h : y.fromProbing = false) : Prob y := fun k => by rw [h] at k; cases k

/-- What follows the adaptation leaves the bound alone. -/
theorem Hi.then {F : Floats} {p : Params} {c : CEvent} {t : Nat} {n m : Net} {y z : Cycle}
    (h : Grow (atSend p n c) n m ∨ (y.fromProbing = true ∧ Cut F p n c t m.inflightHi)) {k : Net} (hk : k.inflightHi = m.inflightHi) (hz : Prob z) :
    Hi F p c t n y (k, z) := by
  refine ⟨?_, hz⟩
  rcases h with h | h
  · exact Or.inl (h.same hk)
  · right; left; dsimp only; rw [hk]; exact h

theorem adaptUpper_either (F : Floats) (p : Params) (n : Net) (y : Cycle) (c : CEvent) (t : Nat) (hp : Prob y) :
    (Grow (atSend p n c) n (adaptUpper F p n y c t).2.1 ∨ (y.fromProbing = true ∧ Cut F p n c t (adaptUpper F p n y c t).2.1.inflightHi)) ∧
    Prob (adaptUpper F p n y c t).2.2 := by
  rcases adaptUpper_hi F p n y c t with ⟨-, h, k, -⟩ | ⟨-, h1, h2, k⟩
  · exact ⟨Or.inl h, by rw [k]; exact hp⟩
  · exact ⟨Or.inr ⟨h1, h2⟩, by rw [k]; exact .of rfl⟩

theorem downRest_hi (F : Floats) (p : Params) (n : Net) (y : Cycle) (c : CEvent) (t : Nat) (hp : Prob y) : Hi F p c t n y (downRest F p n y c t) := by
  obtain ⟨h, k⟩ := adaptUpper_either F p n y c t hp
  unfold downRest
  dsimp only
  generalize adaptUpper F p n y c t = a at h k
  split
  · exact .then h (enterRefill_hi (needWait a.2.1 a.2.2) a.2.2 0 c.now).1 (.of (enterRefill_hi (needWait a.2.1 a.2.2) a.2.2 0 c.now).2)
  · split
    · exact .then h (enterCruise_hi (needWait a.2.1 a.2.2) a.2.2 c.now).1 (.of (enterCruise_hi (needWait a.2.1 a.2.2) a.2.2 c.now).2)
    · split
      · exact .then h rfl k
      · split
        · exact .then h (enterCruise_hi (needWait a.2.1 a.2.2) a.2.2 c.now).1 (.of (enterCruise_hi (needWait a.2.1 a.2.2) a.2.2 c.now).2)
        · exact .then h rfl k

theorem firstRound_look (n : Net) (y : Cycle) (c : CEvent) : Look n (firstRound n y c).1 := by
  unfold firstRound
  dsimp only
  split
  · unfold Net.advance
    split <;> exact ⟨rfl, rfl, rfl, rfl, rfl⟩
  · exact .refl n

theorem updateDown_hi (F : Floats) (p : Params) (n : Net) (y : Cycle) (c : CEvent) (t : Nat) (hd : y.phase = .down)
    (hp : y.fromProbing = true → y.rounds = 0 ∨ (y.rounds = 1 ∧ c.endRound = true)) : Hi F p c t n y (updateDown F p n y c t) := by
  unfold updateDown
  split
  · next hr =>
    have hl := firstRound_look n y c
    have hf : (firstRound n y c).2.fromProbing = false := rfl
    have hph : (firstRound n y c).2.phase = .down := hd
    dsimp only
    generalize firstRound n y c = r at hl hf hph
    split
    · exact ⟨Or.inl (.eq ((enterRefill_hi _ _ _ _).1.trans hl.hi)), .of (enterRefill_hi _ _ _ _).2⟩
    · obtain ⟨k1, k2⟩ := downRest_hi F p r.1 r.2 c t (.of hf)
      refine ⟨?_, k2⟩
      rcases k1 with k | ⟨k, -⟩ | ⟨k, -⟩
      · rw [hl.atSend] at k
        exact Or.inl (.before hl.hi k)
      · rw [hf] at k; cases k
      · rw [k.1] at hph; cases hph
  · next hr =>
    refine downRest_hi F p n y c t fun h => Or.inr ⟨hd, ?_⟩
    rcases hp h with h | h
    · exact h
    · exact absurd h hr

theorem updateCruise_hi (F : Floats) (p : Params) (n : Net) (y : Cycle) (c : CEvent) (t : Nat) (hp : Prob y) : Hi F p c t n y (updateCruise F p n y c t) := by
  obtain ⟨h, k⟩ := adaptUpper_either F p n y c t hp
  unfold updateCruise
  dsimp only
  generalize adaptUpper F p n y c t = a at h k
  split
  · exact .then h (enterRefill_hi (needWait a.2.1 a.2.2) a.2.2 0 c.now).1 (.of (enterRefill_hi (needWait a.2.1 a.2.2) a.2.2 0 c.now).2)
  · exact .then h rfl k

theorem updateRefill_hi (F : Floats) (p : Params) (n : Net) (y : Cycle) (c : CEvent) (t : Nat) (hp : Prob y) : Hi F p c t n y (updateRefill F p n y c t) := by
  obtain ⟨h, k⟩ := adaptUpper_either F p n y c t hp
  unfold updateRefill
  dsimp only
  generalize adaptUpper F p n y c t = a at h k
  split
  · exact .then h rfl fun _ => Or.inl rfl
  · exact .then h rfl k

theorem growHi_hi (n : Net) (y : Cycle) : n.inflightHi ≤ (growHi n y).1.inflightHi ∧ (growHi n y).2.phase = y.phase := by
  unfold growHi
  split
  · exact ⟨Nat.le_refl _, rfl⟩
  · split
    · exact ⟨Nat.le_add_right _ _, rfl⟩
    · exact ⟨Nat.le_refl _, rfl⟩

theorem probeUpward_hi (p : Params) (n : Net) (y : Cycle) (c : CEvent) (hu : y.phase = .up) :
    ((probeUpward p n y c).1.inflightHi = n.inflightHi ∨ (Full p n y c ∧ n.inflightHi ≤ (probeUpward p n y c).1.inflightHi)) ∧
    (probeUpward p n y c).2.phase = .up := by
  unfold probeUpward
  split
  · exact ⟨Or.inl rfl, hu⟩
  · next h1 =>
    split
    · exact ⟨Or.inl rfl, hu⟩
    · next h2 =>
      split
      · exact ⟨Or.inl rfl, hu⟩
      · next h3 =>
        have hf : Full p n y c := ⟨hu, by cases h : p.ignoreHi with | false => rfl | true => exact absurd h h1, Nat.le_of_not_lt h2, Nat.le_of_not_lt h3⟩
        dsimp only
        obtain ⟨k1, k2⟩ := growHi_hi n { y with upAcked := y.upAcked + c.acked }
        split
        · exact ⟨Or.inr ⟨hf, k1⟩, k2.trans hu⟩
        · exact ⟨Or.inr ⟨hf, k1⟩, k2.trans hu⟩

theorem upQueue_hi (F : Floats) (p : Params) (n : Net) (y : Cycle) (c : CEvent) : (upQueue F p n y c).2.inflightHi = n.inflightHi := by
  unfold upQueue
  split
  · split
    · split
      · dsimp only
        unfold Net.checkQueue
        split <;> rfl
      · rfl
    · rfl
  · rfl

theorem updateUp_hi (F : Floats) (p : Params) (n : Net) (y : Cycle) (c : CEvent) (t : Nat) (hu : y.phase = .up) : Hi F p c t n y (updateUp F p n y c t) := by
  have ha := adaptUpper_hi F p n y c t
  unfold updateUp
  dsimp only
  generalize adaptUpper F p n y c t = a at ha
  rcases ha with ⟨h1, h2, h3, -⟩ | ⟨h1, h2, h3, -⟩
  · rw [if_neg h1]
    have hz : a.2.2.phase = .up := by rw [h3]; exact hu
    have hk := probeUpward_hi p a.2.1 a.2.2 c hz
    generalize probeUpward p a.2.1 a.2.2 c = u at hk
    have main : ∀ m : Net, m.inflightHi = u.1.inflightHi →
        Grow (atSend p n c) n m ∨ (y.fromProbing = true ∧ Cut F p n c t m.inflightHi) ∨ (Full p n y c ∧ n.inflightHi ≤ m.inflightHi) := by
      intro m hm
      rcases hk.1 with k | ⟨k1, k2⟩
      · exact Or.inl (h2.same (hm.trans k))
      · refine Or.inr (Or.inr ⟨⟨hu, k1.2.1, k1.2.2.1, Nat.le_trans h2.1 k1.2.2.2⟩, ?_⟩)
        rw [hm]
        exact Nat.le_trans h2.1 k2
    split
    · exact ⟨main _ rfl, fun _ => Or.inr ⟨rfl, rfl⟩⟩
    · have hq := upQueue_hi F p u.1 u.2 c
      split
      · exact ⟨main _ hq, fun _ => Or.inr ⟨rfl, rfl⟩⟩
      · exact ⟨main _ hq, fun _ => Or.inl hk.2⟩
  · rw [if_pos h1]
    exact ⟨Or.inr (Or.inl ⟨h2, h3⟩), fun _ => Or.inr ⟨rfl, rfl⟩⟩

/-- One call of ProbeBW. -/
structure HiCall (F : Floats) (p : Params) (c : CEvent) (t : Nat) (n : Net) (y : Cycle) (r : Mode × Net) : Prop where
  hi : Grow (atSend p n c) n r.2 ∨ (y.fromProbing = true ∧ Cut F p n c t r.2.inflightHi) ∨ (Full p n y c ∧ n.inflightHi ≤ r.2.inflightHi)
  mode : (∃ z, r.1 = .probeBw z ∧ Prob z) ∨ ∃ z, r.1 = .probeRtt z none ∧ (z.phase = .cruise ∨ z.phase = .refill)

theorem countRounds_prob (y : Cycle) (c : CEvent) (hp : Prob y) :
    (countRounds y c).phase = y.phase ∧ (countRounds y c).fromProbing = y.fromProbing ∧
    ((countRounds y c).fromProbing = true → (countRounds y c).phase = .up ∨ ((countRounds y c).phase = .down ∧
      ((countRounds y c).rounds = 0 ∨ ((countRounds y c).rounds = 1 ∧ c.endRound = true)))) := by
  unfold countRounds
  split
  · next he =>
    refine ⟨rfl, rfl, fun h => ?_⟩
    rcases hp h with k | ⟨k, k2⟩
    · exact Or.inl k
    · refine Or.inr ⟨k, ?_⟩
      dsimp only
      split
      · exact Or.inr ⟨by rw [k2], he⟩
      · exact Or.inl k2
  · refine ⟨rfl, rfl, fun h => ?_⟩
    rcases hp h with k | ⟨k, k2⟩
    · exact Or.inl k
    · exact Or.inr ⟨k, Or.inl k2⟩

theorem onProbeBw_hi {T : Nat} (F : Floats) (p : Params) (n : Net) {y : Cycle} (c : CEvent) (t : Nat) (hp : Prob y) (h : Fresh T y) (hc : T ≤ c.now) :
    HiCall F p c t n y (onProbeBw F p n y c t) := by
  obtain ⟨hf, h1, hph, -⟩ := countRounds_fresh h c hc
  obtain ⟨-, hfp, hpr⟩ := countRounds_prob y c hp
  have hfull : Full p n (countRounds y c) c → Full p n y c := fun k => ⟨hph.symm.trans k.1, k.2⟩
  have main : ∀ (r : Net × Cycle) (m : Net), Hi F p c t n (countRounds y c) r → m.inflightHi = r.1.inflightHi →
      Grow (atSend p n c) n m ∨ (y.fromProbing = true ∧ Cut F p n c t m.inflightHi) ∨ (Full p n y c ∧ n.inflightHi ≤ m.inflightHi) := by
    intro r m hr hm
    rcases hr.hi with k | k | k
    · exact Or.inl (k.same hm)
    · right; left; rw [← hfp, hm]; exact k
    · right; right; rw [hm]; exact ⟨hfull k.1, k.2⟩
  unfold onProbeBw updatePhase
  generalize countRounds y c = w at *
  have hpw : w.phase ≠ .down → Prob w := fun k l => (hpr l).elim Or.inl (fun m => absurd m.1 k)
  cases hw : w.phase with
  | notStarted => exact ⟨Or.inl (.eq rfl), Or.inl ⟨w, rfl, hpw (by rw [hw]; decide)⟩⟩
  | up => exact ⟨main _ _ (updateUp_hi F p n w c t hw) rfl, Or.inl ⟨_, rfl, (updateUp_hi F p n w c t hw).prob⟩⟩
  | cruise =>
    have k := updateCruise_hi F p n w c t (hpw (by rw [hw]; decide))
    exact ⟨main _ _ k rfl, Or.inl ⟨_, rfl, k.prob⟩⟩
  | refill =>
    have k := updateRefill_hi F p n w c t (hpw (by rw [hw]; decide))
    exact ⟨main _ _ k rfl, Or.inl ⟨_, rfl, k.prob⟩⟩
  | down =>
    have k := updateDown_hi F p n w c t hw (fun l => (hpr l).elim (fun m => by rw [hw] at m; cases m) (fun m => m.2))
    obtain ⟨-, kp⟩ := updateDown_went F p n c t hf hw (h1 hw)
    dsimp only
    generalize updateDown F p n w c t = d at k kp
    by_cases hd : d.2.phase ≠ .down
    · rw [if_pos hd]
      have hx : (d.1.expireRtt p c).2.inflightHi = d.1.inflightHi := by
        rcases expireRtt_calm p d.1 c with h | ⟨r, -, -, h⟩ <;> rw [h]
      generalize d.1.expireRtt p c = x at hx
      dsimp only
      split
      · exact ⟨main d _ k hx, Or.inr ⟨_, rfl, kp.resolve_left hd⟩⟩
      · exact ⟨main d _ k hx, Or.inl ⟨_, rfl, k.prob⟩⟩
    · rw [if_neg hd]
      exact ⟨main d _ k rfl, Or.inl ⟨_, rfl, k.prob⟩⟩

/-! ### Modes -/

/-- The cycle is as the mode needs it. -/
def ProbM : Mode → Prop
  | .startup => True
  | .drain y => y.fromProbing = false
  | .probeBw y => Prob y
  | .probeRtt _ _ => True

/-- The bound on leaving Startup for losses. -/
def startTo (F : Floats) (p : Params) (n : Net) : Nat :=
  if p.exitByDelivered = true then max (n.bdp0 F) n.maxDelivered else n.bdp0 F

theorem onStartup_hi (F : Floats) (p : Params) (n : Net) (c : CEvent) (x : Option Exit) (cwnd : Nat) :
    ((onStartup F p n c x cwnd).2.1.inflightHi = n.inflightHi ∨
      (n.tooHigh F p c p.startupLossCount = true ∧ c.state.appLimited = false ∧ c.endRound = true ∧ (onStartup F p n c x cwnd).1 = .drain (.new c.now) ∧
        (onStartup F p n c x cwnd).2.1.inflightHi = startTo F p n)) ∧
    (onStartup F p n c x cwnd).2.1.sampler = n.sampler := by
  refine ⟨?_, (startup_calm F p n c x cwnd).sampler⟩
  unfold onStartup
  split
  · exact Or.inl rfl
  · next hfull =>
    split
    · exact Or.inl rfl
    · next hend =>
      have hend' : c.endRound = true := by cases h : c.endRound with | true => rfl | false => exact absurd h hend
      -- what the checks before leave alone
      have h1 : Look n (startupPlateau F p n c x cwnd).2.1 ∧ (startupPlateau F p n c x cwnd).2.1.bdp0 F = n.bdp0 F := by
        unfold startupPlateau Net.growth
        dsimp only
        split
        · exact ⟨⟨rfl, rfl, rfl, rfl, rfl⟩, rfl⟩
        · split <;> exact ⟨⟨rfl, rfl, rfl, rfl, rfl⟩, rfl⟩
      dsimp only
      generalize startupPlateau F p n c x cwnd = g at h1
      have h2 : Look n (startupQueue F p g.2.1 g.2.2 cwnd g.1).1 ∧ (startupQueue F p g.2.1 g.2.2 cwnd g.1).1.bdp0 F = n.bdp0 F := by
        unfold startupQueue
        split
        · dsimp only
          unfold Net.checkQueue
          split
          · exact ⟨⟨h1.1.hi, h1.1.events, h1.1.lost, h1.1.most, h1.1.sampler⟩, h1.2⟩
          · exact ⟨⟨h1.1.hi, h1.1.events, h1.1.lost, h1.1.most, h1.1.sampler⟩, h1.2⟩
        · exact h1
      generalize startupQueue F p g.2.1 g.2.2 cwnd g.1 = q at h2
      have h3 : (startupLoss F p q.1 c q.2 cwnd g.1).1.inflightHi = n.inflightHi ∨
          (n.tooHigh F p c p.startupLossCount = true ∧ c.state.appLimited = false ∧ (startupLoss F p q.1 c q.2 cwnd g.1).1.full = true ∧
            (startupLoss F p q.1 c q.2 cwnd g.1).1.inflightHi = startTo F p n) := by
        unfold startupLoss
        split
        · next hl =>
          dsimp only
          unfold Net.checkLosses
          split
          · next ht =>
            rw [h2.1.tooHigh] at ht
            refine Or.inr ⟨ht, hl.1, rfl, ?_⟩
            show (if p.exitByDelivered = true then max (q.1.bdp0 F) q.1.maxDelivered else q.1.bdp0 F) = startTo F p n
            rw [h2.2, h2.1.most]; rfl
          · exact Or.inl h2.1.hi
        · exact Or.inl h2.1.hi
      generalize startupLoss F p q.1 c q.2 cwnd g.1 = l at h3
      split
      · rcases h3 with h3 | ⟨k1, k2, -, k4⟩
        · exact Or.inl h3
        · exact Or.inr ⟨k1, k2, hend', rfl, k4⟩
      · next hl =>
        rcases h3 with h3 | ⟨-, -, k, -⟩
        · exact Or.inl h3
        · exact absurd k hl

/-- What an event does to the bound, from one mode to another. -/
inductive Moved (F : Floats) (p : Params) (c : CEvent) (n : Net) (t : Nat) (a : Mode) (m : Net) : Prop where
  /-- raised to what was in flight -/
  | grow : Grow (atSend p n c) n m → Moved F p c n t a m
  /-- losses in Startup, then perhaps the same -/
  | start : a = .startup → n.tooHigh F p c p.startupLossCount = true → c.state.appLimited = false → c.endRound = true →
      startTo F p n ≤ m.inflightHi → m.inflightHi ≤ max (startTo F p n) (atSend p n c) → Moved F p c n t a m
  /-- losses in probing -/
  | cut (y : Cycle) : a = .probeBw y → (y.phase = .up ∨ (y.phase = .down ∧ y.rounds = 0)) → Cut F p n c t m.inflightHi → Moved F p c n t a m
  /-- the window was full -/
  | full (y : Cycle) : a = .probeBw y → Full p n y c → n.inflightHi ≤ m.inflightHi → Moved F p c n t a m

/-- From a mode where losses are not laid to probing. -/
theorem loop_grow (F : Floats) (p : Params) (c : CEvent) : ∀ (k : Nat) (b : Bbr), Sound c.now b.mode →
    (match b.mode with | .startup => False | .drain y => y.fromProbing = false | .probeBw y => y.fromProbing = false ∧ y.phase ≠ .up | .probeRtt _ _ => True) →
    Grow (atSend p b.net c) b.net (b.loop F p c k).2.net ∧ ProbM (b.loop F p c k).2.mode
  | 0, b, _, hb => by
    refine ⟨.eq rfl, ?_⟩
    show ProbM b.mode
    cases hm : b.mode with
    | startup => trivial
    | drain y => rw [hm] at hb; exact hb
    | probeBw y => rw [hm] at hb; exact Prob.of hb.1
    | probeRtt y e => trivial
  | k + 1, b, hs, hb => by
    unfold Bbr.loop
    have ih := loop_grow F p c k (b.doEvent F p c)
    have ir : ∀ y, (b.doEvent F p c).mode = .probeRtt y none → _ := fun y hy => rtt_again F p c (b.doEvent F p c) y hy k
    generalize (b.doEvent F p c).loop F p c k = l at ih ir
    cases hm : b.mode with
    | startup => rw [hm] at hb; exact hb.elim
    | drain y =>
      rw [hm] at hb hs
      have hs' : y.phase = .notStarted := hs
      have hb' : y.fromProbing = false := hb
      have hd : (b.doEvent F p c).net.inflightHi = b.net.inflightHi ∧ (b.doEvent F p c).net.sampler = b.net.sampler ∧
          ((b.doEvent F p c).mode = .drain y ∨ ∃ z, (b.doEvent F p c).mode = .probeBw z ∧ z.fromProbing = false ∧ z.phase = .down ∧ Fresh c.now z) := by
        unfold Bbr.doEvent
        rw [hm]
        dsimp only
        unfold onDrain
        dsimp only
        split
        · unfold intoProbeBw enterProbeBw
          dsimp only
          rw [hs']
          exact ⟨rfl, rfl, Or.inr ⟨_, rfl, hb', rfl, enterDown_fresh p _ _ _ _ _⟩⟩
        · exact ⟨rfl, rfl, Or.inl rfl⟩
      generalize b.doEvent F p c = d at hd ih
      obtain ⟨h1, h2, h3 | ⟨z, h3, h4, h5, h6⟩⟩ := hd
      · rw [h3, if_pos (by rfl)]
        exact ⟨.eq h1, by rw [h3]; exact hb'⟩
      · rw [h3, if_neg (fun h => by cases h)]
        obtain ⟨g1, g2⟩ := ih (by rw [h3]; exact h6) (by rw [h3]; exact ⟨h4, by rw [h5]; decide⟩)
        have ha : atSend p d.net c = atSend p b.net c := by unfold atSend; rw [h2]
        rw [ha] at g1
        exact ⟨.before h1 g1, g2⟩
    | probeBw y =>
      rw [hm] at hb hs
      have hd : (b.doEvent F p c).net = (onProbeBw F p b.net y c (b.target F)).2 ∧ (b.doEvent F p c).mode = (onProbeBw F p b.net y c (b.target F)).1 := by
        unfold Bbr.doEvent; rw [hm]; exact ⟨rfl, rfl⟩
      obtain ⟨h1, h2⟩ := onProbeBw_hi F p b.net c (b.target F) (.of hb.1) hs (Nat.le_refl _)
      rw [← hd.1] at h1
      rw [← hd.2] at h2
      generalize b.doEvent F p c = d at h1 h2 ir
      have hg : Grow (atSend p b.net c) b.net d.net := by
        rcases h1 with h | ⟨h, -⟩ | ⟨h, -⟩
        · exact h
        · rw [hb.1] at h; cases h
        · exact absurd h.1 hb.2
      rcases h2 with ⟨z, h2, h3⟩ | ⟨z, h2, -⟩
      · rw [h2, if_pos (by rfl)]
        exact ⟨hg, by rw [h2]; exact h3⟩
      · rw [h2, if_neg (fun h => by cases h)]
        obtain ⟨g1, e, g2⟩ := ir z h2
        rw [g1, g2]
        exact ⟨hg, trivial⟩
    | probeRtt y e =>
      rw [hm] at hs
      have hd : (b.doEvent F p c).net.inflightHi = b.net.inflightHi ∧ (b.doEvent F p c).net.sampler = b.net.sampler ∧
          ((∃ x, (b.doEvent F p c).mode = .probeRtt y x) ∨ ∃ z, (b.doEvent F p c).mode = .probeBw z ∧ z.fromProbing = false ∧ (z.phase = .cruise ∨ z.phase = .refill)) := by
        unfold Bbr.doEvent
        rw [hm]
        dsimp only
        unfold onProbeRtt
        split
        · exact ⟨rfl, rfl, Or.inl ⟨_, rfl⟩⟩
        · split
          · have := back_probe p b.net y c.now hs
            exact ⟨this.2.2.2, (enterProbeBw_calm p b.net y c.now).sampler, Or.inr ⟨_, rfl, this.2.2.1, this.2.1⟩⟩
          · exact ⟨rfl, rfl, Or.inl ⟨_, rfl⟩⟩
      generalize b.doEvent F p c = d at hd ih
      obtain ⟨h1, h2, ⟨x, h3⟩ | ⟨z, h3, h4, h5⟩⟩ := hd
      · rw [h3, if_pos (by rfl)]
        exact ⟨.eq h1, by rw [h3]; trivial⟩
      · rw [h3, if_neg (fun h => by cases h)]
        have hz : z.phase ≠ .down ∧ z.phase ≠ .up := by rcases h5 with h5 | h5 <;> rw [h5] <;> decide
        obtain ⟨g1, g2⟩ := ih (by rw [h3]; exact Fresh.of hz.1) (by rw [h3]; exact ⟨h4, hz.2⟩)
        have ha : atSend p d.net c = atSend p b.net c := by unfold atSend; rw [h2]
        rw [ha] at g1
        exact ⟨.before h1 g1, g2⟩

/-- The calls of an event. -/
theorem loop_hi (F : Floats) (p : Params) (c : CEvent) (k : Nat) (b : Bbr) (T : Nat) (hs : Sound T b.mode) (ht : T ≤ c.now) (hp : ProbM b.mode) :
    Moved F p c b.net (b.target F) b.mode (b.loop F p c k).2.net ∧ ProbM (b.loop F p c k).2.mode := by
  cases hm : b.mode with
  | drain y =>
    rw [hm] at hs hp
    obtain ⟨g1, g2⟩ := loop_grow F p c k b (by rw [hm]; exact hs) (by rw [hm]; exact hp)
    exact ⟨.grow g1, g2⟩
  | probeRtt y e =>
    rw [hm] at hs
    obtain ⟨g1, g2⟩ := loop_grow F p c k b (by rw [hm]; exact hs) (by rw [hm]; trivial)
    exact ⟨.grow g1, g2⟩
  | startup =>
    cases k with
    | zero => exact ⟨.grow (.eq rfl), by show ProbM b.mode; rw [hm]; trivial⟩
    | succ k =>
      unfold Bbr.loop
      have hd : (b.doEvent F p c).net = (onStartup F p b.net c b.exit b.cwnd).2.1 ∧ (b.doEvent F p c).mode = (onStartup F p b.net c b.exit b.cwnd).1 := by
        unfold Bbr.doEvent; rw [hm]; exact ⟨rfl, rfl⟩
      obtain ⟨h1, h2⟩ := onStartup_hi F p b.net c b.exit b.cwnd
      have h3 := (onStartup_bw F p b.net c b.exit b.cwnd).2
      rw [← hd.1, ← hd.2] at h1
      rw [← hd.1] at h2
      rw [← hd.2] at h3
      have ig := loop_grow F p c k (b.doEvent F p c)
      generalize (b.doEvent F p c).loop F p c k = l at ig
      generalize b.doEvent F p c = d at h1 h2 h3 ig
      have ha : atSend p d.net c = atSend p b.net c := by unfold atSend; rw [h2]
      rcases h3 with h3 | h3
      · rw [hm, h3, if_pos (by rfl)]
        refine ⟨?_, by rw [h3]; trivial⟩
        rcases h1 with h1 | ⟨-, -, -, h1, -⟩
        · exact .grow (.eq h1)
        · rw [h3] at h1; cases h1
      · rw [hm, h3, if_neg (fun h => by cases h)]
        obtain ⟨g1, g2⟩ := ig (by rw [h3]; rfl) (by rw [h3]; rfl)
        rw [ha] at g1
        refine ⟨?_, g2⟩
        rcases h1 with h1 | ⟨q1, q2, q3, -, q5⟩
        · exact .grow (.before h1 g1)
        · unfold Grow at g1
          rw [q5] at g1
          exact .start rfl q1 q2 q3 g1.1 g1.2
  | probeBw y =>
    rw [hm] at hs hp
    cases k with
    | zero => exact ⟨.grow (.eq rfl), by show ProbM b.mode; rw [hm]; exact hp⟩
    | succ k =>
      unfold Bbr.loop
      have hd : (b.doEvent F p c).net = (onProbeBw F p b.net y c (b.target F)).2 ∧ (b.doEvent F p c).mode = (onProbeBw F p b.net y c (b.target F)).1 := by
        unfold Bbr.doEvent; rw [hm]; exact ⟨rfl, rfl⟩
      obtain ⟨h1, h2⟩ := onProbeBw_hi F p b.net c (b.target F) hp hs ht
      rw [← hd.1] at h1
      rw [← hd.2] at h2
      have ir : ∀ y, (b.doEvent F p c).mode = .probeRtt y none → _ := fun y hy => rtt_again F p c (b.doEvent F p c) y hy k
      generalize (b.doEvent F p c).loop F p c k = l at ir
      generalize b.doEvent F p c = d at h1 h2 ir
      have hg : Moved F p c b.net (b.target F) (.probeBw y) d.net := by
        rcases h1 with h | ⟨h, h'⟩ | ⟨h, h'⟩
        · exact .grow h
        · exact .cut y rfl (hp h) h'
        · exact .full y rfl h h'
      rcases h2 with ⟨z, h2, h3⟩ | ⟨z, h2, -⟩
      · rw [hm, h2, if_pos (by rfl)]
        exact ⟨hg, by rw [h2]; exact h3⟩
      · rw [hm, h2, if_neg (fun h => by cases h)]
        obtain ⟨g1, e, g2⟩ := ir z h2
        rw [g1, g2]
        exact ⟨hg, trivial⟩

/-- Coming out of quiescence. -/
theorem quiet_hi (p : Params) (b : Bbr) (now inFlight T : Nat) (hs : Sound T b.mode) (hp : ProbM b.mode) :
    (if inFlight = 0 then b.exitQuiet p now else b).net.inflightHi = b.net.inflightHi ∧ ProbM (if inFlight = 0 then b.exitQuiet p now else b).mode := by
  split
  · unfold Bbr.exitQuiet
    split
    · exact ⟨rfl, hp⟩
    · unfold Bbr.wake
      split
      · exact ⟨rfl, hp⟩
      · exact ⟨rfl, hp⟩
      · exact ⟨rfl, hp⟩
      · next y hy =>
        have hy' : b.mode = .probeRtt y none := hy
        rw [hy'] at hs
        have k := back_probe p b.net y now hs
        exact ⟨k.2.2.2, Prob.of k.2.2.1⟩
      · next y t hy =>
        have hy' : b.mode = .probeRtt y (some t) := hy
        split
        · rw [hy'] at hs
          have k := back_probe p b.net y now hs
          exact ⟨k.2.2.2, Prob.of k.2.2.1⟩
        · exact ⟨rfl, hp⟩
  · exact ⟨rfl, hp⟩

end Verif.Bbr
