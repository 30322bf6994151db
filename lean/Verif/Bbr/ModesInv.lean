import Verif.Bbr.Modes
import Verif.Bbr.SamplerInv

/-!
Invariants of BBR's modes: what every phase and every mode keeps, and how modes change.
-/

namespace Verif.Bbr

/-- What the modes leave alone in the network model: the sampler and the rounds; once full bandwidth is reached it stays so; no panic. -/
structure Same (n m : Net) : Prop where
  sampler : m.sampler = n.sampler
  rounds : m.rounds = n.rounds
  last : m.lastSent = n.lastSent
  full : n.full = true → m.full = true
  ok : n.bad = false → m.bad = false

theorem Same.refl (n : Net) : Same n n := ⟨rfl, rfl, rfl, id, id⟩

theorem Same.trans {a b c : Net} (h : Same a b) (k : Same b c) : Same a c :=
  ⟨k.sampler.trans h.sampler, k.rounds.trans h.rounds, k.last.trans h.last, fun x => k.full (h.full x), fun x => k.ok (h.ok x)⟩

/-- A cycle between events; `A` bounds the bytes acknowledged while probing. -/
structure CycleOk (A : Nat) (y : Cycle) : Prop where
  rounds : y.upRounds ≤ 30
  bytes : ∀ b, y.upBytes = some b → defaultMss ≤ b
  acked : y.upAcked ≤ A
  wait : y.phase ≠ .notStarted → y.wait.isSome = true

theorem CycleOk.mono {A B : Nat} {y : Cycle} (h : CycleOk A y) (hab : A ≤ B) : CycleOk B y :=
  ⟨h.rounds, h.bytes, Nat.le_trans h.acked hab, h.wait⟩

theorem new_cycle (A now : Nat) : CycleOk A (.new now) := ⟨Nat.zero_le _, (by intro b h; cases h), Nat.zero_le _, fun h => absurd rfl h⟩

/-- A step of a phase. -/
structure Good (A : Nat) (n : Net) (r : Net × Cycle) : Prop where
  same : Same n r.1
  cyc : CycleOk A r.2

theorem restart_same (n : Net) : Same n n.restart := ⟨rfl, rfl, rfl, id, id⟩

theorem enterDown_good {A : Nat} {y : Cycle} (p : Params) (n : Net) (h : CycleOk A y) (t r : Bool) (now : Nat) :
    Good A n (enterDown p n y t r now) ∧ (enterDown p n y t r now).2.phase = .down :=
  ⟨⟨⟨rfl, rfl, rfl, id, id⟩, ⟨h.rounds, (by intro b hb; cases hb), h.acked, fun _ => rfl⟩⟩, rfl⟩

theorem advance_same (n : Net) : Same n n.advance := by
  unfold Net.advance
  split
  · exact Same.refl n
  · exact ⟨rfl, rfl, rfl, id, id⟩

theorem capLo_same (n : Net) (c : Nat) : Same n (n.capLo c) := by
  unfold Net.capLo
  split
  · exact ⟨rfl, rfl, rfl, id, id⟩
  · exact Same.refl n

theorem exitDown_good {A : Nat} {y : Cycle} (n : Net) (h : CycleOk A y) :
    Good A n (exitDown n y) ∧ (exitDown n y).2.phase = y.phase ∧ (exitDown n y).2.wait = y.wait := by
  unfold exitDown
  split
  · exact ⟨⟨advance_same n, ⟨h.rounds, h.bytes, h.acked, h.wait⟩⟩, rfl, rfl⟩
  · exact ⟨⟨Same.refl n, h⟩, rfl, rfl⟩

theorem enterCruise_good {A : Nat} {y : Cycle} (n : Net) (h : CycleOk A y) (hp : y.phase ≠ .notStarted) (now : Nat) :
    Good A n (enterCruise n y now) ∧ (enterCruise n y now).2.phase = .cruise := by
  obtain ⟨⟨h1, h2⟩, h3, h4⟩ := exitDown_good n h
  unfold enterCruise
  exact ⟨⟨h1.trans (capLo_same _ _), ⟨h2.rounds, h2.bytes, h2.acked, fun _ => by show (exitDown n y).2.wait.isSome = true; rw [h4]; exact h.wait hp⟩⟩, rfl⟩

theorem enterRefill_good {A : Nat} {y : Cycle} (n : Net) (h : CycleOk A y) (hp : y.phase ≠ .notStarted) (k now : Nat) (hk : k ≤ 30) :
    Good A n (enterRefill n y k now) ∧ (enterRefill n y k now).2.phase = .refill := by
  obtain ⟨⟨h1, h2⟩, h3, h4⟩ := exitDown_good n h
  unfold enterRefill
  exact ⟨⟨h1.trans ⟨rfl, rfl, rfl, id, id⟩, ⟨hk, h2.bytes, Nat.zero_le _, fun _ => by show (exitDown n y).2.wait.isSome = true; rw [h4]; exact h.wait hp⟩⟩, rfl⟩

theorem raiseSlope_good {A : Nat} {y : Cycle} (n : Net) (h : CycleOk A y) (cwnd : Nat) :
    Good A n (raiseSlope n y cwnd) ∧ (raiseSlope n y cwnd).2.phase = y.phase := by
  have hr := h.rounds
  unfold raiseSlope
  refine ⟨⟨⟨rfl, rfl, rfl, id, ?_⟩, ⟨Nat.min_le_right _ _, ?_, h.acked, h.wait⟩⟩, rfl⟩
  · intro hb
    show (n.bad || decide (y.upRounds ≥ 64)) = false
    simp only [hb, Bool.false_or, decide_eq_false_iff_not]
    omega
  · intro b hb
    simp only [Option.some.injEq] at hb
    rw [← hb]
    exact Nat.le_max_right _ _

theorem enterUp_good {A : Nat} {y : Cycle} (n : Net) (h : CycleOk A y) (hp : y.phase ≠ .notStarted) (now cwnd : Nat) :
    Good A n (enterUp n y now cwnd) ∧ (enterUp n y now cwnd).2.phase = .up := by
  have h0 : CycleOk A { y with phase := .up, phaseStart := now, rounds := 0, fromProbing := true } := ⟨h.rounds, h.bytes, h.acked, fun _ => h.wait hp⟩
  obtain ⟨⟨h1, h2⟩, h3⟩ := raiseSlope_good n h0 cwnd
  unfold enterUp
  exact ⟨⟨h1.trans (restart_same _), h2⟩, h3⟩

theorem lowerHi_same (F : Floats) (p : Params) (n : Net) (c : CEvent) (t : Nat) : Same n (lowerHi F p n c t) := by
  unfold lowerHi
  split
  · exact ⟨rfl, rfl, rfl, id, id⟩
  · exact Same.refl n

theorem adaptUpper_good {A : Nat} {y : Cycle} (F : Floats) (p : Params) (n : Net) (h : CycleOk A y) (c : CEvent) (t : Nat)
    (hst : c.state.valid = true → c.state.acked ≤ n.sampler.acked) :
    Good A n (adaptUpper F p n y c t).2 ∧ (adaptUpper F p n y c t).2.2.phase = y.phase ∧ (adaptUpper F p n y c t).2.2.wait = y.wait ∧
    (adaptUpper F p n y c t).2.2.rounds = y.rounds ∧ (adaptUpper F p n y c t).2.2.upRounds = y.upRounds ∧ (adaptUpper F p n y c t).2.2.upBytes = y.upBytes ∧
    (adaptUpper F p n y c t).2.2.upAcked = y.upAcked := by
  unfold adaptUpper
  split
  · exact ⟨⟨Same.refl n, h⟩, rfl, rfl, rfl, rfl, rfl, rfl⟩
  · next hv =>
    have hle := hst (by simpa using hv)
    have hs : Same n { n with bad := n.bad || (p.deliveredForHi && decide (n.sampler.acked < c.state.acked)) } := by
      refine ⟨rfl, rfl, rfl, id, ?_⟩
      intro hb
      show (n.bad || (p.deliveredForHi && decide (n.sampler.acked < c.state.acked))) = false
      have : decide (n.sampler.acked < c.state.acked) = false := by simp only [decide_eq_false_iff_not]; omega
      rw [hb, this, Bool.and_false]
      rfl
    dsimp only
    split
    · split
      · exact ⟨⟨hs.trans (lowerHi_same F p _ c t), ⟨h.rounds, h.bytes, h.acked, h.wait⟩⟩, rfl, rfl, rfl, rfl, rfl, rfl⟩
      · exact ⟨⟨hs, h⟩, rfl, rfl, rfl, rfl, rfl, rfl⟩
    · split
      · exact ⟨⟨hs, h⟩, rfl, rfl, rfl, rfl, rfl, rfl⟩
      · exact ⟨⟨hs.trans ⟨rfl, rfl, rfl, id, id⟩, h⟩, rfl, rfl, rfl, rfl, rfl, rfl⟩

theorem needWait_same (n : Net) (y : Cycle) (h : y.wait.isSome = true) : Same n (needWait n y) := by
  refine ⟨rfl, rfl, rfl, id, ?_⟩
  intro hb
  show (n.bad || y.wait.isNone) = false
  cases hw : y.wait with
  | none => rw [hw] at h; cases h
  | some w => rw [hb]; rfl

theorem downRest_good {A : Nat} {y : Cycle} (F : Floats) (p : Params) (n : Net) (h : CycleOk A y) (hp : y.phase = .down) (c : CEvent) (t : Nat)
    (hst : c.state.valid = true → c.state.acked ≤ n.sampler.acked) :
    Good A n (downRest F p n y c t) ∧ ((downRest F p n y c t).2.phase = .down ∨ (downRest F p n y c t).2.phase = .cruise ∨ (downRest F p n y c t).2.phase = .refill) := by
  obtain ⟨⟨a1, a2⟩, a3, a4, -⟩ := adaptUpper_good F p n h c t hst
  have hne : (adaptUpper F p n y c t).2.2.phase ≠ .notStarted := by rw [a3, hp]; decide
  have hs := a1.trans (needWait_same (adaptUpper F p n y c t).2.1 (adaptUpper F p n y c t).2.2 (a2.wait hne))
  unfold downRest
  dsimp only
  split
  · obtain ⟨⟨g1, g2⟩, g3⟩ := enterRefill_good (needWait (adaptUpper F p n y c t).2.1 (adaptUpper F p n y c t).2.2) a2 hne 0 c.now (by omega)
    exact ⟨⟨hs.trans g1, g2⟩, Or.inr (Or.inr g3)⟩
  · obtain ⟨⟨g1, g2⟩, g3⟩ := enterCruise_good (needWait (adaptUpper F p n y c t).2.1 (adaptUpper F p n y c t).2.2) a2 hne c.now
    split
    · exact ⟨⟨hs.trans g1, g2⟩, Or.inr (Or.inl g3)⟩
    · split
      · exact ⟨⟨hs, a2⟩, Or.inl (a3.trans hp)⟩
      · split
        · exact ⟨⟨hs.trans g1, g2⟩, Or.inr (Or.inl g3)⟩
        · exact ⟨⟨hs, a2⟩, Or.inl (a3.trans hp)⟩

theorem firstRound_good {A : Nat} {y : Cycle} (n : Net) (h : CycleOk A y) (c : CEvent) :
    Good A n (firstRound n y c) ∧ (firstRound n y c).2.phase = y.phase := by
  unfold firstRound
  refine ⟨⟨?_, ⟨h.rounds, h.bytes, h.acked, h.wait⟩⟩, rfl⟩
  dsimp only
  split
  · exact advance_same n
  · exact Same.refl n

theorem updateDown_good {A : Nat} {y : Cycle} (F : Floats) (p : Params) (n : Net) (h : CycleOk A y) (hp : y.phase = .down) (c : CEvent) (t : Nat)
    (hst : c.state.valid = true → c.state.acked ≤ n.sampler.acked) :
    Good A n (updateDown F p n y c t) ∧ ((updateDown F p n y c t).2.phase = .down ∨ (updateDown F p n y c t).2.phase = .cruise ∨ (updateDown F p n y c t).2.phase = .refill) := by
  unfold updateDown
  obtain ⟨⟨f1, f2⟩, f3⟩ := firstRound_good n h c
  split
  · dsimp only
    split
    · obtain ⟨⟨g1, g2⟩, g3⟩ := enterRefill_good (firstRound n y c).1 f2 (by rw [f3, hp]; decide) 0 c.now (by omega)
      exact ⟨⟨f1.trans g1, g2⟩, Or.inr (Or.inr g3)⟩
    · obtain ⟨⟨g1, g2⟩, g3⟩ := downRest_good F p (firstRound n y c).1 f2 (f3.trans hp) c t (by rw [f1.sampler]; exact hst)
      exact ⟨⟨f1.trans g1, g2⟩, g3⟩
  · exact downRest_good F p n h hp c t hst

theorem updateCruise_good {A : Nat} {y : Cycle} (F : Floats) (p : Params) (n : Net) (h : CycleOk A y) (hp : y.phase = .cruise) (c : CEvent) (t : Nat)
    (hst : c.state.valid = true → c.state.acked ≤ n.sampler.acked) :
    Good A n (updateCruise F p n y c t) ∧ ((updateCruise F p n y c t).2.phase = .cruise ∨ (updateCruise F p n y c t).2.phase = .refill) := by
  obtain ⟨⟨a1, a2⟩, a3, a4, -⟩ := adaptUpper_good F p n h c t hst
  have hne : (adaptUpper F p n y c t).2.2.phase ≠ .notStarted := by rw [a3, hp]; decide
  have hs := a1.trans (needWait_same (adaptUpper F p n y c t).2.1 (adaptUpper F p n y c t).2.2 (a2.wait hne))
  unfold updateCruise
  dsimp only
  split
  · obtain ⟨⟨g1, g2⟩, g3⟩ := enterRefill_good (needWait (adaptUpper F p n y c t).2.1 (adaptUpper F p n y c t).2.2) a2 hne 0 c.now (by omega)
    exact ⟨⟨hs.trans g1, g2⟩, Or.inr g3⟩
  · exact ⟨⟨hs, a2⟩, Or.inl (a3.trans hp)⟩

theorem updateRefill_good {A : Nat} {y : Cycle} (F : Floats) (p : Params) (n : Net) (h : CycleOk A y) (hp : y.phase = .refill) (c : CEvent) (t : Nat)
    (hst : c.state.valid = true → c.state.acked ≤ n.sampler.acked) :
    Good A n (updateRefill F p n y c t) ∧ ((updateRefill F p n y c t).2.phase = .refill ∨ (updateRefill F p n y c t).2.phase = .up) := by
  obtain ⟨⟨a1, a2⟩, a3, -⟩ := adaptUpper_good F p n h c t hst
  unfold updateRefill
  dsimp only
  split
  · obtain ⟨⟨g1, g2⟩, g3⟩ := enterUp_good (adaptUpper F p n y c t).2.1 a2 (by rw [a3, hp]; decide) c.now c.priorCwnd
    exact ⟨⟨a1.trans g1, g2⟩, Or.inr g3⟩
  · exact ⟨⟨a1, a2⟩, Or.inl (a3.trans hp)⟩

/-- The growth of the upper bound: by no more than the bytes acknowledged for it. -/
theorem growHi_good {A : Nat} {y : Cycle} (n : Net) (h : CycleOk A y) (hov : n.inflightHi + A ≤ u64Max) :
    Good A n (growHi n y) ∧ (growHi n y).2.phase = y.phase ∧ (growHi n y).1.inflightHi + (growHi n y).2.upAcked ≤ n.inflightHi + y.upAcked ∧
    n.inflightHi ≤ (growHi n y).1.inflightHi := by
  unfold growHi
  split
  · exact ⟨⟨Same.refl n, h⟩, rfl, Nat.le_refl _, Nat.le_refl _⟩
  · next b hb =>
    have hm := h.bytes b hb
    have hA := h.acked
    have h1 : y.upAcked / b * b ≤ y.upAcked := Nat.div_mul_le_self _ _
    have h2 : y.upAcked / b * defaultMss ≤ y.upAcked / b * b := Nat.mul_le_mul_left _ hm
    split
    · refine ⟨⟨⟨rfl, rfl, rfl, id, ?_⟩, ⟨h.rounds, h.bytes, ?_, h.wait⟩⟩, rfl, ?_, Nat.le_add_right _ _⟩
      · intro hbad
        show (n.bad || decide (b = 0) || decide (n.inflightHi + y.upAcked / b * defaultMss > u64Max)) = false
        have e1 : decide (b = 0) = false := by simp only [decide_eq_false_iff_not]; simp only [defaultMss] at hm; omega
        have e2 : decide (n.inflightHi + y.upAcked / b * defaultMss > u64Max) = false := by simp only [decide_eq_false_iff_not]; omega
        rw [hbad, e1, e2]
        rfl
      · show y.upAcked - y.upAcked / b * b ≤ A
        omega
      · show n.inflightHi + y.upAcked / b * defaultMss + (y.upAcked - y.upAcked / b * b) ≤ n.inflightHi + y.upAcked
        omega
    · exact ⟨⟨Same.refl n, h⟩, rfl, Nat.le_refl _, Nat.le_refl _⟩

theorem probeUpward_good {A : Nat} {y : Cycle} (p : Params) (n : Net) (h : CycleOk A y) (c : CEvent) (hov : c.priorCwnd + (A + c.acked) ≤ u64Max) :
    Good (A + c.acked) n (probeUpward p n y c) ∧ (probeUpward p n y c).2.phase = y.phase := by
  unfold probeUpward
  have hA := h.acked
  split
  · exact ⟨⟨Same.refl n, h.mono (Nat.le_add_right _ _)⟩, rfl⟩
  · split
    · exact ⟨⟨Same.refl n, h.mono (Nat.le_add_right _ _)⟩, rfl⟩
    · split
      · exact ⟨⟨Same.refl n, h.mono (Nat.le_add_right _ _)⟩, rfl⟩
      · next hc =>
        have h0 : CycleOk (A + c.acked) { y with upAcked := y.upAcked + c.acked } := ⟨h.rounds, h.bytes, by dsimp only; omega, h.wait⟩
        obtain ⟨⟨g1, g2⟩, g3, -⟩ := growHi_good n h0 (by omega)
        dsimp only
        split
        · obtain ⟨⟨r1, r2⟩, r3⟩ := raiseSlope_good (growHi n { y with upAcked := y.upAcked + c.acked }).1 g2 c.priorCwnd
          exact ⟨⟨g1.trans r1, r2⟩, r3.trans g3⟩
        · exact ⟨⟨g1, g2⟩, g3⟩

theorem checkQueue_same (F : Floats) (p : Params) (n : Net) (g : Nat) : Same n (n.checkQueue F p g) := by
  unfold Net.checkQueue
  split
  · exact ⟨rfl, rfl, rfl, id, id⟩
  · refine ⟨rfl, rfl, rfl, ?_, id⟩
    intro h
    show (n.full || _) = true
    rw [h]
    rfl

theorem upQueue_same (F : Floats) (p : Params) (n : Net) (y : Cycle) (c : CEvent) : Same n (upQueue F p n y c).2 := by
  unfold upQueue
  split
  · split
    · split
      · exact checkQueue_same F p n _
      · exact Same.refl n
    · exact Same.refl n
  · exact Same.refl n

theorem updateUp_good {A : Nat} {y : Cycle} (F : Floats) (p : Params) (n : Net) (h : CycleOk A y) (hp : y.phase = .up) (c : CEvent) (t : Nat)
    (hst : c.state.valid = true → c.state.acked ≤ n.sampler.acked) (hov : c.priorCwnd + (A + c.acked) ≤ u64Max) :
    Good (A + c.acked) n (updateUp F p n y c t) ∧ ((updateUp F p n y c t).2.phase = .up ∨ (updateUp F p n y c t).2.phase = .down) := by
  obtain ⟨⟨a1, a2⟩, a3, -⟩ := adaptUpper_good F p n h c t hst
  unfold updateUp
  dsimp only
  split
  · obtain ⟨⟨g1, g2⟩, g3⟩ := enterDown_good p (adaptUpper F p n y c t).2.1 a2 true false c.now
    exact ⟨⟨a1.trans g1, g2.mono (Nat.le_add_right _ _)⟩, Or.inr g3⟩
  · obtain ⟨⟨u1, u2⟩, u3⟩ := probeUpward_good p (adaptUpper F p n y c t).2.1 a2 c hov
    split
    · obtain ⟨⟨g1, g2⟩, g3⟩ := enterDown_good p (probeUpward p (adaptUpper F p n y c t).2.1 (adaptUpper F p n y c t).2.2 c).1 u2 false true c.now
      exact ⟨⟨a1.trans (u1.trans g1), g2⟩, Or.inr g3⟩
    · have hq := upQueue_same F p (probeUpward p (adaptUpper F p n y c t).2.1 (adaptUpper F p n y c t).2.2 c).1
        (probeUpward p (adaptUpper F p n y c t).2.1 (adaptUpper F p n y c t).2.2 c).2 c
      split
      · obtain ⟨⟨g1, g2⟩, g3⟩ := enterDown_good p (upQueue F p (probeUpward p (adaptUpper F p n y c t).2.1 (adaptUpper F p n y c t).2.2 c).1
          (probeUpward p (adaptUpper F p n y c t).2.1 (adaptUpper F p n y c t).2.2 c).2 c).2 u2 false false c.now
        exact ⟨⟨a1.trans (u1.trans (hq.trans g1)), g2⟩, Or.inr g3⟩
      · exact ⟨⟨a1.trans (u1.trans hq), u2⟩, Or.inl (u3.trans (a3.trans hp))⟩

theorem countRounds_ok {A : Nat} {y : Cycle} (h : CycleOk A y) (c : CEvent) : CycleOk A (countRounds y c) ∧ (countRounds y c).phase = y.phase := by
  unfold countRounds
  split
  · exact ⟨⟨h.rounds, h.bytes, h.acked, h.wait⟩, rfl⟩
  · exact ⟨h, rfl⟩

theorem expireRtt_same (p : Params) (n : Net) (c : CEvent) : Same n (n.expireRtt p c).2 := by
  unfold Net.expireRtt
  split
  · exact Same.refl n
  · split
    · exact Same.refl n
    · exact ⟨rfl, rfl, rfl, id, id⟩

/-- A phase at work: started phases go on to started phases, and ProbeRTT is entered only from a phase ProbeDown was left for. -/
theorem updatePhase_good {A : Nat} {y : Cycle} (F : Floats) (p : Params) (n : Net) (h : CycleOk A y) (hp : y.phase ≠ .notStarted) (c : CEvent) (t : Nat)
    (hst : c.state.valid = true → c.state.acked ≤ n.sampler.acked) (hov : c.priorCwnd + (A + c.acked) ≤ u64Max) :
    Good (A + c.acked) n (updatePhase F p n y c t).2 ∧ (updatePhase F p n y c t).2.2.phase ≠ .notStarted ∧
    ((updatePhase F p n y c t).1 = true → y.phase = .down ∧ ((updatePhase F p n y c t).2.2.phase = .cruise ∨ (updatePhase F p n y c t).2.2.phase = .refill) ∧
      CycleOk A (updatePhase F p n y c t).2.2) := by
  unfold updatePhase
  split
  · next hq => exact absurd hq hp
  · next hq =>
    obtain ⟨g, k⟩ := updateUp_good F p n h hq c t hst hov
    refine ⟨g, ?_, fun hf => by cases hf⟩
    rcases k with k | k <;> (dsimp only; rw [k]; decide)
  · next hq =>
    obtain ⟨⟨g1, g2⟩, k⟩ := updateDown_good F p n h hq c t hst
    dsimp only
    split
    · next hne =>
      refine ⟨⟨g1.trans (expireRtt_same p _ c), g2.mono (Nat.le_add_right _ _)⟩, ?_, fun _ => ⟨hq, ?_, g2⟩⟩
      · rcases k with k | k | k <;> (dsimp only; rw [k]; decide)
      · rcases k with k | k
        · exact absurd k hne
        · exact k
    · refine ⟨⟨g1, g2.mono (Nat.le_add_right _ _)⟩, ?_, fun hf => by cases hf⟩
      rcases k with k | k | k <;> (dsimp only; rw [k]; decide)
  · next hq =>
    obtain ⟨⟨g1, g2⟩, k⟩ := updateCruise_good F p n h hq c t hst
    refine ⟨⟨g1, g2.mono (Nat.le_add_right _ _)⟩, ?_, fun hf => by cases hf⟩
    rcases k with k | k <;> (dsimp only; rw [k]; decide)
  · next hq =>
    obtain ⟨⟨g1, g2⟩, k⟩ := updateRefill_good F p n h hq c t hst
    refine ⟨⟨g1, g2.mono (Nat.le_add_right _ _)⟩, ?_, fun hf => by cases hf⟩
    rcases k with k | k <;> (dsimp only; rw [k]; decide)

/-! ### Modes -/

/-- The mode with what goes with it. -/
def ModeOk (p : Params) (A : Nat) (m : Mode) (n : Net) (x : Option Exit) : Prop :=
  match m with
  | .startup => n.full = false ∧ x = none ∧ n.pacingGain = p.startupPacingGain ∧ n.cwndGain = p.startupCwndGain
  | .drain y => n.full = true ∧ x.isSome = true ∧ CycleOk A y ∧ y.phase = .notStarted
  | .probeBw y => n.full = true ∧ x.isSome = true ∧ CycleOk A y ∧ y.phase ≠ .notStarted
  | .probeRtt y _ => n.full = true ∧ x.isSome = true ∧ CycleOk A y ∧ (y.phase = .cruise ∨ y.phase = .refill) ∧ n.pacingGain = p.rttPacingGain ∧ n.cwndGain = p.rttCwndGain

/-- How often the mode can still change in an event. -/
def rank : Mode → Nat
  | .startup => 3
  | .drain _ => 2
  | .probeBw y => if y.phase = .down then 1 else 0
  | .probeRtt _ none => 0
  | .probeRtt _ (some _) => 1

/-- The changes of mode there are. -/
def Change (a b : Mode) : Prop := (a.kind = 0 ∧ b.kind = 1) ∨ (a.kind = 1 ∧ b.kind = 2) ∨ (a.kind = 2 ∧ b.kind = 3) ∨ (a.kind = 3 ∧ b.kind = 2)

theorem growth_full (F : Floats) (p : Params) (n : Net) (c : CEvent) :
    Same n (n.growth F p c).2 ∧ (n.growth F p c).2.pacingGain = n.pacingGain ∧ (n.growth F p c).2.cwndGain = n.cwndGain := by
  unfold Net.growth
  split
  · exact ⟨⟨rfl, rfl, rfl, id, id⟩, rfl, rfl⟩
  · split
    · exact ⟨Same.refl n, rfl, rfl⟩
    · refine ⟨⟨rfl, rfl, rfl, ?_, id⟩, rfl, rfl⟩
      intro h
      show (n.full || _) = true
      rw [h]
      rfl

theorem checkQueue_gain (F : Floats) (p : Params) (n : Net) (g : Nat) : (n.checkQueue F p g).pacingGain = n.pacingGain ∧ (n.checkQueue F p g).cwndGain = n.cwndGain := by
  unfold Net.checkQueue
  split <;> exact ⟨rfl, rfl⟩

theorem checkLosses_same (F : Floats) (p : Params) (n : Net) (c : CEvent) :
    Same n (n.checkLosses F p c) ∧ (n.checkLosses F p c).pacingGain = n.pacingGain ∧ (n.checkLosses F p c).cwndGain = n.cwndGain := by
  unfold Net.checkLosses
  split
  · exact ⟨⟨rfl, rfl, rfl, fun _ => rfl, id⟩, rfl, rfl⟩
  · exact ⟨Same.refl n, rfl, rfl⟩

/-- The exit recorded is there exactly if full bandwidth is reached. -/
def Told (n : Net) (x : Option Exit) : Prop := (n.full = true → x.isSome = true) ∧ (n.full = false → x = none)

theorem setExit_some (x : Option Exit) (e : Exit) : (setExit x e).isSome = true := by cases x <;> rfl

theorem plateau_told (F : Floats) (p : Params) (n : Net) (c : CEvent) (cwnd : Nat) :
    Same n (startupPlateau F p n c none cwnd).2.1 ∧ Told (startupPlateau F p n c none cwnd).2.1 (startupPlateau F p n c none cwnd).2.2 ∧
    (startupPlateau F p n c none cwnd).2.1.pacingGain = n.pacingGain ∧ (startupPlateau F p n c none cwnd).2.1.cwndGain = n.cwndGain := by
  obtain ⟨g1, g2, g3⟩ := growth_full F p n c
  unfold startupPlateau
  refine ⟨g1, ⟨?_, ?_⟩, g2, g3⟩
  · intro h
    show Option.isSome (if _ then _ else _) = true
    rw [if_pos h]
    rfl
  · intro h
    show (if _ then _ else _) = none
    rw [if_neg (by dsimp only at h; rw [h]; decide)]

theorem queue_told (F : Floats) (p : Params) (n : Net) (x : Option Exit) (cwnd : Nat) (g : Bool) (h : Told n x) :
    Same n (startupQueue F p n x cwnd g).1 ∧ Told (startupQueue F p n x cwnd g).1 (startupQueue F p n x cwnd g).2 ∧
    (startupQueue F p n x cwnd g).1.pacingGain = n.pacingGain ∧ (startupQueue F p n x cwnd g).1.cwndGain = n.cwndGain := by
  unfold startupQueue
  split
  · have hs := checkQueue_same F p n queueGain
    obtain ⟨h2, h3⟩ := checkQueue_gain F p n queueGain
    refine ⟨hs, ⟨?_, ?_⟩, h2, h3⟩
    · intro hf
      dsimp only at hf ⊢
      rw [if_pos hf]
      exact setExit_some _ _
    · intro hf
      dsimp only at hf ⊢
      rw [if_neg (by rw [hf]; decide)]
      refine h.2 ?_
      cases hn : n.full with
      | false => rfl
      | true => rw [hs.full hn] at hf; cases hf
  · exact ⟨Same.refl n, h, rfl, rfl⟩

theorem loss_told (F : Floats) (p : Params) (n : Net) (c : CEvent) (x : Option Exit) (cwnd : Nat) (g : Bool) (h : Told n x) :
    Same n (startupLoss F p n c x cwnd g).1 ∧ Told (startupLoss F p n c x cwnd g).1 (startupLoss F p n c x cwnd g).2 ∧
    (startupLoss F p n c x cwnd g).1.pacingGain = n.pacingGain ∧ (startupLoss F p n c x cwnd g).1.cwndGain = n.cwndGain := by
  unfold startupLoss
  split
  · next hc =>
    obtain ⟨hs, h2, h3⟩ := checkLosses_same F p n c
    refine ⟨hs, ⟨?_, ?_⟩, h2, h3⟩
    · intro hf
      dsimp only at hf ⊢
      rw [if_pos hf]
      exact setExit_some _ _
    · intro hf
      dsimp only at hf ⊢
      rw [if_neg (by rw [hf]; decide)]
      exact h.2 hc.2.2
  · exact ⟨Same.refl n, h, rfl, rfl⟩

theorem startup_ok {A : Nat} (F : Floats) (p : Params) (n : Net) (x : Option Exit) (c : CEvent) (cwnd : Nat) (h : ModeOk p A .startup n x) :
    ModeOk p A (onStartup F p n c x cwnd).1 (onStartup F p n c x cwnd).2.1 (onStartup F p n c x cwnd).2.2 ∧ Same n (onStartup F p n c x cwnd).2.1 ∧
    ((onStartup F p n c x cwnd).1.kind = 0 ∨ (onStartup F p n c x cwnd).1.kind = 1) := by
  obtain ⟨h1, h2, h3, h4⟩ := h
  unfold onStartup
  rw [if_neg (by rw [h1]; decide)]
  split
  · exact ⟨⟨h1, h2, h3, h4⟩, Same.refl n, Or.inl rfl⟩
  · rw [h2]
    obtain ⟨a1, a2, a3, a4⟩ := plateau_told F p n c cwnd
    generalize startupPlateau F p n c none cwnd = g at a1 a2 a3 a4
    obtain ⟨b1, b2, b3, b4⟩ := queue_told F p g.2.1 g.2.2 cwnd g.1 a2
    dsimp only
    generalize startupQueue F p g.2.1 g.2.2 cwnd g.1 = q at b1 b2 b3 b4
    obtain ⟨d1, d2, d3, d4⟩ := loss_told F p q.1 c q.2 cwnd g.1 b2
    generalize startupLoss F p q.1 c q.2 cwnd g.1 = l at d1 d2 d3 d4
    have hs := a1.trans (b1.trans d1)
    split
    · next hf =>
      refine ⟨⟨hf, d2.1 hf, new_cycle A c.now, rfl⟩, hs.trans ⟨rfl, rfl, rfl, id, id⟩, Or.inr rfl⟩
    · next hf =>
      have hf' : l.1.full = false := by simpa using hf
      exact ⟨⟨hf', d2.2 hf', by rw [d3, b3, a3, h3], by rw [d4, b4, a4, h4]⟩, hs, Or.inl rfl⟩

theorem enterProbeBw_good {A : Nat} {y : Cycle} (p : Params) (n : Net) (h : CycleOk A y) (now : Nat) :
    Good A n (enterProbeBw p n y now) ∧ (enterProbeBw p n y now).2.phase ≠ .notStarted ∧
    (y.phase = .cruise ∨ y.phase = .refill → (enterProbeBw p n y now).2.phase = y.phase) ∧ (y.phase = .notStarted → (enterProbeBw p n y now).2.phase = .down) := by
  have h0 : CycleOk A { y with start := now } := ⟨h.rounds, h.bytes, h.acked, h.wait⟩
  unfold enterProbeBw
  dsimp only
  split
  · next hp =>
    obtain ⟨g, k⟩ := enterDown_good p n h0 false false now
    refine ⟨g, by rw [k]; decide, ?_, fun _ => k⟩
    intro hq
    rw [hp] at hq
    rcases hq with hq | hq <;> cases hq
  · next hp =>
    obtain ⟨g, k⟩ := enterCruise_good n h0 (by dsimp only; rw [hp]; decide) now
    exact ⟨g, by rw [k]; decide, fun _ => by rw [k, hp], fun hq => by rw [hp] at hq; cases hq⟩
  · next hp =>
    obtain ⟨g, k⟩ := enterRefill_good n h0 (by dsimp only; rw [hp]; decide) y.upRounds now h.rounds
    exact ⟨g, by rw [k]; decide, fun _ => by rw [k, hp], fun hq => by rw [hp] at hq; cases hq⟩
  · next hp => exact ⟨⟨Same.refl n, h0⟩, by dsimp only; rw [hp]; decide, fun _ => rfl, fun hq => by rw [hp] at hq; cases hq⟩
  · next hp => exact ⟨⟨Same.refl n, h0⟩, by dsimp only; rw [hp]; decide, fun _ => rfl, fun hq => by rw [hp] at hq; cases hq⟩

theorem intoProbeBw_ok {A : Nat} {y : Cycle} (p : Params) (n : Net) (x : Option Exit) (h : CycleOk A y) (hf : n.full = true) (hx : x.isSome = true) (now : Nat) :
    ModeOk p A (intoProbeBw p n y now).1 (intoProbeBw p n y now).2 x ∧ Same n (intoProbeBw p n y now).2 ∧ (intoProbeBw p n y now).1.kind = 2 := by
  obtain ⟨⟨g1, g2⟩, g3, -⟩ := enterProbeBw_good p n h now
  exact ⟨⟨g1.full hf, hx, g2, g3⟩, g1, rfl⟩

theorem drain_ok {A : Nat} {y : Cycle} (F : Floats) (p : Params) (n : Net) (x : Option Exit) (c : CEvent) (h : ModeOk p A (.drain y) n x) :
    ModeOk p A (onDrain F p n y c).1 (onDrain F p n y c).2 x ∧ Same n (onDrain F p n y c).2 ∧
    (((onDrain F p n y c).1.kind = 1 ∧ (onDrain F p n y c).2.pacingGain = p.drainPacingGain ∧ (onDrain F p n y c).2.cwndGain = p.drainCwndGain) ∨
      ((onDrain F p n y c).1.kind = 2 ∧ rank (onDrain F p n y c).1 ≤ 1)) := by
  obtain ⟨h1, h2, h3, h4⟩ := h
  have hs : Same n { n with pacingGain := p.drainPacingGain, cwndGain := p.drainCwndGain } := ⟨rfl, rfl, rfl, id, id⟩
  unfold onDrain
  dsimp only
  split
  · obtain ⟨g1, g2, g3⟩ := intoProbeBw_ok p { n with pacingGain := p.drainPacingGain, cwndGain := p.drainCwndGain } x h3 h1 h2 c.now
    refine ⟨g1, hs.trans g2, Or.inr ⟨g3, ?_⟩⟩
    unfold intoProbeBw rank
    dsimp only
    split <;> omega
  · exact ⟨⟨h1, h2, h3, h4⟩, hs, Or.inl ⟨rfl, rfl, rfl⟩⟩

theorem probeRtt_ok {A : Nat} {y : Cycle} {e : Option Nat} (F : Floats) (p : Params) (n : Net) (x : Option Exit) (c : CEvent) (h : ModeOk p A (.probeRtt y e) n x) :
    ModeOk p A (onProbeRtt F p n y e c).1 (onProbeRtt F p n y e c).2 x ∧ Same n (onProbeRtt F p n y e c).2 ∧
    ((onProbeRtt F p n y e c).1.kind = 3 ∨ ((onProbeRtt F p n y e c).1.kind = 2 ∧ rank (onProbeRtt F p n y e c).1 < rank (.probeRtt y e))) := by
  obtain ⟨h1, h2, h3, h4, h5, h6⟩ := h
  unfold onProbeRtt
  split
  · exact ⟨⟨h1, h2, h3, h4, h5, h6⟩, Same.refl n, Or.inl rfl⟩
  · next t =>
    split
    · obtain ⟨g1, g2, g3⟩ := intoProbeBw_ok p n x h3 h1 h2 c.now
      obtain ⟨-, -, k3, -⟩ := enterProbeBw_good p n h3 c.now
      refine ⟨g1, g2, Or.inr ⟨g3, ?_⟩⟩
      have := k3 h4
      unfold intoProbeBw rank
      dsimp only
      rw [if_neg (by rw [this]; rcases h4 with h4 | h4 <;> (rw [h4]; decide))]
      omega
    · exact ⟨⟨h1, h2, h3, h4, h5, h6⟩, Same.refl n, Or.inl rfl⟩

theorem probeBw_ok {A : Nat} {y : Cycle} (F : Floats) (p : Params) (n : Net) (x : Option Exit) (c : CEvent) (t : Nat) (h : ModeOk p A (.probeBw y) n x)
    (hst : c.state.valid = true → c.state.acked ≤ n.sampler.acked) (hov : c.priorCwnd + (A + c.acked) ≤ u64Max) :
    Same n (onProbeBw F p n y c t).2 ∧
    (((onProbeBw F p n y c t).1.kind = 2 ∧ ModeOk p (A + c.acked) (onProbeBw F p n y c t).1 (onProbeBw F p n y c t).2 x ∧
        ∃ z, (onProbeBw F p n y c t).1 = .probeBw z ∧ (onProbeBw F p n y c t).2.pacingGain = z.phase.pacingGain p ∧ (onProbeBw F p n y c t).2.cwndGain = z.phase.cwndGain p) ∨
     ((onProbeBw F p n y c t).1.kind = 3 ∧ ModeOk p A (onProbeBw F p n y c t).1 (onProbeBw F p n y c t).2 x ∧
        y.phase = .down ∧ rank (onProbeBw F p n y c t).1 = 0)) := by
  obtain ⟨h1, h2, h3, h4⟩ := h
  obtain ⟨k1, k2⟩ := countRounds_ok h3 c
  obtain ⟨⟨g1, g2⟩, g3, g4⟩ := updatePhase_good F p n k1 (by rw [k2]; exact h4) c t hst hov
  unfold onProbeBw
  dsimp only
  split
  · next hr =>
    obtain ⟨d1, d2, d3⟩ := g4 hr
    exact ⟨g1.trans ⟨rfl, rfl, rfl, id, id⟩, Or.inr ⟨rfl, ⟨g1.full h1, h2, d3, d2, rfl, rfl⟩, k2.symm.trans d1, rfl⟩⟩
  · exact ⟨g1.trans ⟨rfl, rfl, rfl, id, id⟩, Or.inl ⟨rfl, ⟨g1.full h1, h2, g2, g3⟩, _, rfl, rfl, rfl⟩⟩

theorem ModeOk.mono {p : Params} {A B : Nat} {m : Mode} {n : Net} {x : Option Exit} (h : ModeOk p A m n x) (hab : A ≤ B) : ModeOk p B m n x := by
  cases m with
  | startup => exact h
  | drain y => exact ⟨h.1, h.2.1, h.2.2.1.mono hab, h.2.2.2⟩
  | probeBw y => exact ⟨h.1, h.2.1, h.2.2.1.mono hab, h.2.2.2⟩
  | probeRtt y e => exact ⟨h.1, h.2.1, h.2.2.1.mono hab, h.2.2.2⟩

/-- The gains of a mode. -/
def gainsOf (p : Params) : Mode → Nat × Nat
  | .startup => (p.startupPacingGain, p.startupCwndGain)
  | .drain _ => (p.drainPacingGain, p.drainCwndGain)
  | .probeBw y => (y.phase.pacingGain p, y.phase.cwndGain p)
  | .probeRtt _ _ => (p.rttPacingGain, p.rttCwndGain)

/-- One call of a mode: either the mode stays, with its gains set, or it changes and can change less often from then on. -/
structure Called (p : Params) (A : Nat) (c : CEvent) (b b' : Bbr) : Prop where
  same : Same b.net b'.net
  rest : b'.cwnd = b.cwnd ∧ b'.mss = b.mss ∧ b'.pacingRate = b.pacingRate ∧ b'.lo = b.lo ∧ b'.hi = b.hi ∧ b'.initial = b.initial ∧ b'.quiet = b.quiet
  turn : (b'.mode.kind = b.mode.kind ∧ ModeOk p (A + c.acked) b'.mode b'.net b'.exit ∧ (b'.net.pacingGain, b'.net.cwndGain) = gainsOf p b'.mode) ∨
    (Change b.mode b'.mode ∧ b'.mode.kind ≠ b.mode.kind ∧ ModeOk p A b'.mode b'.net b'.exit ∧ rank b'.mode < rank b.mode)
  exit : b.mode.kind ≠ 0 → b'.exit = b.exit

theorem doEvent_called {A : Nat} (F : Floats) (p : Params) (b : Bbr) (c : CEvent) (h : ModeOk p A b.mode b.net b.exit)
    (hst : c.state.valid = true → c.state.acked ≤ b.net.sampler.acked) (hov : c.priorCwnd + (A + c.acked) ≤ u64Max) : Called p A c b (b.doEvent F p c) := by
  unfold Bbr.doEvent
  cases hm : b.mode with
  | startup =>
    rw [hm] at h
    dsimp only
    obtain ⟨g1, g2, g3⟩ := startup_ok F p b.net b.exit c b.cwnd h
    generalize onStartup F p b.net c b.exit b.cwnd = r at g1 g2 g3
    obtain ⟨m, n, x⟩ := r
    refine ⟨g2, ⟨rfl, rfl, rfl, rfl, rfl, rfl, rfl⟩, ?_, fun hk => absurd (by rw [hm]; rfl) hk⟩
    rcases g3 with g3 | g3
    · refine Or.inl ⟨by dsimp only at g3 ⊢; rw [hm, g3]; rfl, g1.mono (Nat.le_add_right _ _), ?_⟩
      cases m with
      | startup => exact Prod.ext g1.2.2.1 g1.2.2.2
      | drain y => cases g3
      | probeBw y => cases g3
      | probeRtt y e => cases g3
    · cases m with
      | drain y => exact Or.inr ⟨by rw [hm]; exact Or.inl ⟨rfl, rfl⟩, (by rw [hm]; exact fun hk => by cases hk), g1, by rw [hm]; exact Nat.lt_succ_self 2⟩
      | startup => cases g3
      | probeBw y => cases g3
      | probeRtt y e => cases g3
  | drain y =>
    rw [hm] at h
    dsimp only
    obtain ⟨g1, g2, g3⟩ := drain_ok F p b.net b.exit c h
    generalize onDrain F p b.net y c = r at g1 g2 g3
    obtain ⟨m, n⟩ := r
    refine ⟨g2, ⟨rfl, rfl, rfl, rfl, rfl, rfl, rfl⟩, ?_, fun _ => rfl⟩
    rcases g3 with ⟨g3, e1, e2⟩ | ⟨g3, g4⟩
    · refine Or.inl ⟨by dsimp only at g3 ⊢; rw [hm, g3]; rfl, g1.mono (Nat.le_add_right _ _), ?_⟩
      cases m with
      | drain y => exact Prod.ext e1 e2
      | startup => cases g3
      | probeBw y => cases g3
      | probeRtt y e => cases g3
    · cases m with
      | probeBw z => exact Or.inr ⟨by rw [hm]; exact Or.inr (Or.inl ⟨rfl, rfl⟩), (by rw [hm]; exact fun hk => by cases hk), g1,
          by rw [hm]; exact Nat.lt_of_le_of_lt g4 (by decide : (1 : Nat) < 2)⟩
      | startup => cases g3
      | drain y => cases g3
      | probeRtt y e => cases g3
  | probeBw y =>
    rw [hm] at h
    dsimp only
    obtain ⟨g1, g2⟩ := probeBw_ok F p b.net b.exit c (b.target F) h hst hov
    generalize onProbeBw F p b.net y c (b.target F) = r at g1 g2
    obtain ⟨m, n⟩ := r
    refine ⟨g1, ⟨rfl, rfl, rfl, rfl, rfl, rfl, rfl⟩, ?_, fun _ => rfl⟩
    rcases g2 with ⟨g3, g4, z, g5, g6, g7⟩ | ⟨g3, g4, g5, g6⟩
    · refine Or.inl ⟨by dsimp only at g3 ⊢; rw [hm, g3]; rfl, g4, ?_⟩
      dsimp only at g5 g6 g7 ⊢
      rw [g5]
      exact Prod.ext g6 g7
    · dsimp only at g3 g4 g6
      refine Or.inr ⟨?_, ?_, g4, ?_⟩
      · rw [hm]; exact Or.inr (Or.inr (Or.inl ⟨rfl, g3⟩))
      · rw [hm]; dsimp only; rw [g3]; exact fun hk => by cases hk
      · dsimp only; rw [hm, g6]
        show 0 < (if y.phase = .down then 1 else 0)
        rw [if_pos g5]
        exact Nat.lt_succ_self 0
  | probeRtt y e =>
    rw [hm] at h
    dsimp only
    obtain ⟨g1, g2, g3⟩ := probeRtt_ok F p b.net b.exit c h
    generalize onProbeRtt F p b.net y e c = r at g1 g2 g3
    obtain ⟨m, n⟩ := r
    refine ⟨g2, ⟨rfl, rfl, rfl, rfl, rfl, rfl, rfl⟩, ?_, fun _ => rfl⟩
    rcases g3 with g3 | ⟨g3, g4⟩
    · refine Or.inl ⟨by dsimp only at g3 ⊢; rw [hm, g3]; rfl, g1.mono (Nat.le_add_right _ _), ?_⟩
      cases m with
      | probeRtt z e' => exact Prod.ext g1.2.2.2.2.1 g1.2.2.2.2.2
      | startup => cases g3
      | probeBw y => cases g3
      | drain y => cases g3
    · dsimp only at g3 g4
      refine Or.inr ⟨?_, ?_, g1, ?_⟩
      · rw [hm]; exact Or.inr (Or.inr (Or.inr ⟨rfl, g3⟩))
      · rw [hm]; dsimp only; rw [g3]; exact fun hk => by cases hk
      · rw [hm]; exact g4

/-- The modes reached by a number of changes. -/
inductive Reach : Nat → Mode → Mode → Prop where
  | stay (a b : Mode) : b.kind = a.kind → Reach 0 a b
  | go {j : Nat} {a b c : Mode} : Change a b → Reach j b c → Reach (j + 1) a c

/-- The loop over the modes comes to rest before its limit: the last call leaves the mode as it is, with the gains of that mode. -/
theorem loop_rest {A : Nat} (F : Floats) (p : Params) (c : CEvent) : ∀ (k : Nat) (b : Bbr), rank b.mode < k → ModeOk p A b.mode b.net b.exit →
    (c.state.valid = true → c.state.acked ≤ b.net.sampler.acked) → c.priorCwnd + (A + c.acked) ≤ u64Max →
    (b.loop F p c k).1 = false ∧ Same b.net (b.loop F p c k).2.net ∧
    ModeOk p (A + c.acked) (b.loop F p c k).2.mode (b.loop F p c k).2.net (b.loop F p c k).2.exit ∧
    ((b.loop F p c k).2.net.pacingGain, (b.loop F p c k).2.net.cwndGain) = gainsOf p (b.loop F p c k).2.mode ∧
    ((b.loop F p c k).2.cwnd = b.cwnd ∧ (b.loop F p c k).2.mss = b.mss ∧ (b.loop F p c k).2.pacingRate = b.pacingRate ∧ (b.loop F p c k).2.lo = b.lo ∧
      (b.loop F p c k).2.hi = b.hi ∧ (b.loop F p c k).2.initial = b.initial ∧ (b.loop F p c k).2.quiet = b.quiet) ∧
    (∃ j, j ≤ rank b.mode ∧ Reach j b.mode (b.loop F p c k).2.mode) ∧ (b.mode.kind ≠ 0 → (b.loop F p c k).2.exit = b.exit)
  | 0, _, hk, _, _, _ => absurd hk (Nat.not_lt_zero _)
  | k + 1, b, hk, h, hst, hov => by
    obtain ⟨g1, g2, g3, g4⟩ := doEvent_called F p b c h hst hov
    unfold Bbr.loop
    rcases g3 with ⟨d1, d2, d3⟩ | ⟨d1, d2, d3, d4⟩
    · rw [if_pos d1]
      exact ⟨rfl, g1, d2, d3, g2, ⟨0, Nat.zero_le _, .stay _ _ d1⟩, g4⟩
    · rw [if_neg d2]
      obtain ⟨e1, e2, e3, e4, e5, e6, e7⟩ := loop_rest F p c k (b.doEvent F p c) (by omega) d3 (by rw [g1.sampler]; exact hst) hov
      obtain ⟨q1, q2, q3, q4, q5, q6, q7⟩ := e5
      obtain ⟨r1, r2, r3, r4, r5, r6, r7⟩ := g2
      refine ⟨e1, g1.trans e2, e3, e4, ⟨q1.trans r1, q2.trans r2, q3.trans r3, q4.trans r4, q5.trans r5, q6.trans r6, q7.trans r7⟩, (e6.elim fun j hj => ⟨j + 1, by omega, .go d1 hj.2⟩), ?_⟩
      intro h0
      have : (b.doEvent F p c).mode.kind ≠ 0 := by
        rcases d1 with d | d | d | d <;> (rw [d.2]; decide)
      rw [e7 this, g4 h0]

end Verif.Bbr
