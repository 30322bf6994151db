import Verif.Bbr.HiInv

/-!
What the modes do to the lower bounds on bandwidth and on the bytes in flight, with the
default treatment of losses.
-/

namespace Verif.Bbr

/-- No lower bounds. -/
def Unset (n : Net) : Prop := n.bwLo = none ∧ n.inflightLo = u64Max

/-- The lower bounds as before. -/
def SameLo (n m : Net) : Prop := m.bwLo = n.bwLo ∧ m.inflightLo = n.inflightLo

theorem SameLo.trans {a b c : Net} (h : SameLo a b) (k : SameLo b c) : SameLo a c := ⟨k.1.trans h.1, k.2.trans h.2⟩

/-- The lower bounds as before, or that on the bytes in flight made smaller. -/
def KeepLo (n m : Net) : Prop := m.bwLo = n.bwLo ∧ m.inflightLo ≤ n.inflightLo ∧ (n.inflightLo = u64Max → m.inflightLo = u64Max)

theorem SameLo.keep {a b : Net} (h : SameLo a b) : KeepLo a b := ⟨h.1, Nat.le_of_eq h.2, fun k => h.2.trans k⟩

theorem KeepLo.trans {a b c : Net} (h : KeepLo a b) (k : KeepLo b c) : KeepLo a c :=
  ⟨k.1.trans h.1, Nat.le_trans k.2.1 h.2.1, fun e => k.2.2 (h.2.2 e)⟩

theorem KeepLo.unset {a b : Net} (h : KeepLo a b) (k : Unset a) : Unset b := ⟨h.1.trans k.1, h.2.2 k.2⟩

/-- PROBE_REFILL or PROBE_UP. -/
def climbs (y : Cycle) : Prop := y.phase = .refill ∨ y.phase = .up

theorem adaptUpper_lo (F : Floats) (p : Params) (n : Net) (y : Cycle) (c : CEvent) (t : Nat) :
    SameLo n (adaptUpper F p n y c t).2.1 ∧ (adaptUpper F p n y c t).2.2.phase = y.phase := by
  unfold adaptUpper
  split
  · exact ⟨⟨rfl, rfl⟩, rfl⟩
  · dsimp only
    split
    · split
      · unfold lowerHi
        split <;> exact ⟨⟨rfl, rfl⟩, rfl⟩
      · exact ⟨⟨rfl, rfl⟩, rfl⟩
    · split <;> exact ⟨⟨rfl, rfl⟩, rfl⟩

theorem advance_lo (n : Net) : SameLo n n.advance ∧ n.advance.inflightHi = n.inflightHi := by
  unfold Net.advance
  split <;> exact ⟨⟨rfl, rfl⟩, rfl⟩

theorem exitDown_lo (n : Net) (y : Cycle) : SameLo n (exitDown n y).1 ∧ (exitDown n y).1.inflightHi = n.inflightHi := by
  unfold exitDown
  split
  · exact advance_lo n
  · exact ⟨⟨rfl, rfl⟩, rfl⟩

/-- The bound on the bytes in flight when cruising: not above the upper one. -/
def CapLo (n m : Net) : Prop := m.bwLo = n.bwLo ∧ m.inflightLo = if n.inflightLo = u64Max then u64Max else min m.inflightHi n.inflightLo

theorem CapLo.keep {a b : Net} (h : CapLo a b) : KeepLo a b := by
  refine ⟨h.1, ?_, fun k => ?_⟩ <;> rw [h.2]
  · split
    · next k => exact Nat.le_of_eq k.symm
    · exact Nat.min_le_right _ _
  · rw [if_pos k]

theorem CapLo.before {a b c : Net} (h : SameLo a b) (k : CapLo b c) : CapLo a c := by
  refine ⟨k.1.trans h.1, ?_⟩
  have := k.2
  rw [h.2] at this
  exact this

theorem enterCruise_lo (n : Net) (y : Cycle) (now : Nat) : CapLo n (enterCruise n y now).1 ∧ (enterCruise n y now).2.phase = .cruise := by
  refine ⟨?_, rfl⟩
  unfold enterCruise
  dsimp only
  obtain ⟨h1, h2⟩ := exitDown_lo n y
  generalize (exitDown n y).1 = m at h1
  refine CapLo.before h1 ?_
  unfold Net.capLo CapLo
  split
  · exact ⟨rfl, rfl⟩
  · next h => exact ⟨rfl, by rw [Decidable.not_not] at h; rw [if_pos h]; exact h⟩

theorem enterRefill_lo (n : Net) (y : Cycle) (k now : Nat) : Unset (enterRefill n y k now).1 ∧ (enterRefill n y k now).2.phase = .refill := ⟨⟨rfl, rfl⟩, rfl⟩

theorem enterDown_lo (p : Params) (hp : p.loMode = .default) (n : Net) (y : Cycle) (a b : Bool) (now : Nat) :
    SameLo n (enterDown p n y a b now).1 ∧ (enterDown p n y a b now).2.phase = .down := by
  refine ⟨⟨?_, rfl⟩, rfl⟩
  show (if p.loMode = .default then n.bwLo else none) = n.bwLo
  rw [if_pos hp]

theorem raiseSlope_lo (n : Net) (y : Cycle) (cwnd : Nat) : SameLo n (raiseSlope n y cwnd).1 ∧ (raiseSlope n y cwnd).2.phase = y.phase := ⟨⟨rfl, rfl⟩, rfl⟩

theorem growHi_lo (n : Net) (y : Cycle) : SameLo n (growHi n y).1 ∧ (growHi n y).2.phase = y.phase := by
  unfold growHi
  split
  · exact ⟨⟨rfl, rfl⟩, rfl⟩
  · split <;> exact ⟨⟨rfl, rfl⟩, rfl⟩

theorem probeUpward_lo (p : Params) (n : Net) (y : Cycle) (c : CEvent) : SameLo n (probeUpward p n y c).1 ∧ (probeUpward p n y c).2.phase = y.phase := by
  unfold probeUpward
  split
  · exact ⟨⟨rfl, rfl⟩, rfl⟩
  · split
    · exact ⟨⟨rfl, rfl⟩, rfl⟩
    · split
      · exact ⟨⟨rfl, rfl⟩, rfl⟩
      · dsimp only
        have h := growHi_lo n { y with upAcked := y.upAcked + c.acked }
        split
        · exact ⟨h.1, h.2⟩
        · exact h

theorem checkQueue_sameLo (F : Floats) (p : Params) (n : Net) (g : Nat) : SameLo n (n.checkQueue F p g) := by
  unfold Net.checkQueue
  split <;> exact ⟨rfl, rfl⟩

theorem upQueue_lo (F : Floats) (p : Params) (n : Net) (y : Cycle) (c : CEvent) : SameLo n (upQueue F p n y c).2 := by
  unfold upQueue
  split
  · split
    · split
      · exact checkQueue_sameLo F p n p.fullBwThreshold
      · exact ⟨rfl, rfl⟩
    · exact ⟨rfl, rfl⟩
  · exact ⟨rfl, rfl⟩

theorem updateUp_lo (F : Floats) (p : Params) (hp : p.loMode = .default) (n : Net) (y : Cycle) (c : CEvent) (t : Nat) (hy : y.phase = .up) :
    SameLo n (updateUp F p n y c t).1 ∧ ((updateUp F p n y c t).2.phase = .up ∨ (updateUp F p n y c t).2.phase = .down) := by
  unfold updateUp
  obtain ⟨a1, a2⟩ := adaptUpper_lo F p n y c t
  dsimp only
  generalize adaptUpper F p n y c t = a at a1 a2
  split
  · obtain ⟨d1, d2⟩ := enterDown_lo p hp a.2.1 a.2.2 true false c.now
    exact ⟨a1.trans d1, Or.inr d2⟩
  · obtain ⟨u1, u2⟩ := probeUpward_lo p a.2.1 a.2.2 c
    generalize probeUpward p a.2.1 a.2.2 c = u at u1 u2
    split
    · obtain ⟨d1, d2⟩ := enterDown_lo p hp u.1 u.2 false true c.now
      exact ⟨(a1.trans u1).trans d1, Or.inr d2⟩
    · have q1 := upQueue_lo F p u.1 u.2 c
      generalize upQueue F p u.1 u.2 c = q at q1
      split
      · obtain ⟨d1, d2⟩ := enterDown_lo p hp q.2 u.2 false false c.now
        exact ⟨((a1.trans u1).trans q1).trans d1, Or.inr d2⟩
      · exact ⟨(a1.trans u1).trans q1, Or.inl (u2.trans (a2.trans hy))⟩

theorem updateRefill_lo (F : Floats) (p : Params) (n : Net) (y : Cycle) (c : CEvent) (t : Nat) (hy : y.phase = .refill) :
    SameLo n (updateRefill F p n y c t).1 ∧ climbs (updateRefill F p n y c t).2 := by
  unfold updateRefill
  obtain ⟨a1, a2⟩ := adaptUpper_lo F p n y c t
  dsimp only
  generalize adaptUpper F p n y c t = a at a1 a2
  split
  · exact ⟨a1.trans ⟨rfl, rfl⟩, Or.inr rfl⟩
  · exact ⟨a1, Or.inl (a2.trans hy)⟩

theorem updateCruise_lo (F : Floats) (p : Params) (n : Net) (y : Cycle) (c : CEvent) (t : Nat) (hy : y.phase = .cruise) :
    (Unset (updateCruise F p n y c t).1 ∧ (updateCruise F p n y c t).2.phase = .refill) ∨
    (SameLo n (updateCruise F p n y c t).1 ∧ (updateCruise F p n y c t).2.phase = .cruise) := by
  unfold updateCruise
  obtain ⟨a1, a2⟩ := adaptUpper_lo F p n y c t
  dsimp only
  generalize adaptUpper F p n y c t = a at a1 a2
  split
  · exact Or.inl ⟨⟨rfl, rfl⟩, rfl⟩
  · exact Or.inr ⟨a1.trans ⟨rfl, rfl⟩, a2.trans hy⟩

/-- What PROBE_DOWN comes to. -/
def DownLo (n : Net) (r : Net × Cycle) : Prop :=
  (Unset r.1 ∧ r.2.phase = .refill) ∨ (CapLo n r.1 ∧ r.2.phase = .cruise) ∨ (SameLo n r.1 ∧ r.2.phase = .down)

theorem downRest_lo (F : Floats) (p : Params) (n : Net) (y : Cycle) (c : CEvent) (t : Nat) (hy : y.phase = .down) : DownLo n (downRest F p n y c t) := by
  unfold downRest
  obtain ⟨a1, a2⟩ := adaptUpper_lo F p n y c t
  dsimp only
  generalize adaptUpper F p n y c t = a at a1 a2
  have hw : SameLo n (needWait a.2.1 a.2.2) := a1.trans ⟨rfl, rfl⟩
  have hc := (enterCruise_lo (needWait a.2.1 a.2.2) a.2.2 c.now).1
  split
  · exact Or.inl ⟨⟨rfl, rfl⟩, rfl⟩
  · split
    · exact Or.inr (Or.inl ⟨.before hw hc, rfl⟩)
    · split
      · exact Or.inr (Or.inr ⟨hw, a2.trans hy⟩)
      · split
        · exact Or.inr (Or.inl ⟨.before hw hc, rfl⟩)
        · exact Or.inr (Or.inr ⟨hw, a2.trans hy⟩)

theorem updateDown_lo (F : Floats) (p : Params) (n : Net) (y : Cycle) (c : CEvent) (t : Nat) (hy : y.phase = .down) : DownLo n (updateDown F p n y c t) := by
  unfold updateDown
  split
  · dsimp only
    have hf : SameLo n (firstRound n y c).1 ∧ (firstRound n y c).2.phase = y.phase := by
      unfold firstRound
      dsimp only
      refine ⟨?_, rfl⟩
      split
      · exact (advance_lo n).1
      · exact ⟨rfl, rfl⟩
    generalize firstRound n y c = r at hf
    split
    · exact Or.inl ⟨⟨rfl, rfl⟩, rfl⟩
    · rcases downRest_lo F p r.1 r.2 c t (hf.2.trans hy) with h | ⟨h, k⟩ | ⟨h, k⟩
      · exact Or.inl h
      · exact Or.inr (Or.inl ⟨.before hf.1 h, k⟩)
      · exact Or.inr (Or.inr ⟨hf.1.trans h, k⟩)
  · exact downRest_lo F p n y c t hy

/-- What a call in ProbeBW does. -/
structure BwLo (n : Net) (y : Cycle) (m : Net) (z : Cycle) : Prop where
  move : (Unset m ∧ z.phase = .refill) ∨ KeepLo n m
  climb : climbs y → KeepLo n m
  refill : y.phase = .refill → climbs z
  later : climbs z → (climbs y ∧ KeepLo n m) ∨ (Unset m ∧ z.phase = .refill)
  cruise : y.phase = .down → z.phase = .cruise → CapLo n m

theorem BwLo.same {n m k : Net} {y z : Cycle} (h : BwLo n y m z) (s : SameLo m k) (hi : k.inflightHi = m.inflightHi) : BwLo n y k z := by
  have hu : Unset m → Unset k := fun u => ⟨s.1.trans u.1, s.2.trans u.2⟩
  refine ⟨?_, fun c => (h.climb c).trans s.keep, h.refill, fun c => ?_, fun c d => ?_⟩
  · exact h.move.imp (fun a => ⟨hu a.1, a.2⟩) (fun a => a.trans s.keep)
  · exact (h.later c).imp (fun a => ⟨a.1, a.2.trans s.keep⟩) (fun a => ⟨hu a.1, a.2⟩)
  · have := h.cruise c d
    exact ⟨s.1.trans this.1, by rw [s.2, this.2, hi]⟩

theorem expireRtt_lo (p : Params) (n : Net) (c : CEvent) : SameLo n (n.expireRtt p c).2 ∧ (n.expireRtt p c).2.inflightHi = n.inflightHi := by
  unfold Net.expireRtt
  split
  · exact ⟨⟨rfl, rfl⟩, rfl⟩
  · split <;> exact ⟨⟨rfl, rfl⟩, rfl⟩

theorem updatePhase_lo (F : Floats) (p : Params) (hp : p.loMode = .default) (n : Net) (y : Cycle) (c : CEvent) (t : Nat) :
    BwLo n y (updatePhase F p n y c t).2.1 (updatePhase F p n y c t).2.2 := by
  unfold updatePhase
  have no : ∀ {x : Cycle} {q : Phase}, x.phase = q → q ≠ .refill → q ≠ .up → ¬climbs x := by
    intro x q h1 h2 h3 h4
    rcases h4 with h4 | h4
    · exact h2 (h1 ▸ h4)
    · exact h3 (h1 ▸ h4)
  split
  · next h =>
    have hk : KeepLo n { n with bad := true } := SameLo.keep ⟨rfl, rfl⟩
    exact ⟨Or.inr hk, fun _ => hk, fun k => (by rw [h] at k; cases k), fun k => absurd k (no h (by decide) (by decide)), fun k => (by rw [h] at k; cases k)⟩
  · next h =>
    obtain ⟨h1, h2⟩ := updateUp_lo F p hp n y c t h
    dsimp only
    exact ⟨Or.inr h1.keep, fun _ => h1.keep, fun k => (by rw [h] at k; cases k), fun _ => Or.inl ⟨Or.inr h, h1.keep⟩, fun k => (by rw [h] at k; cases k)⟩
  · next h =>
    have hd := updateDown_lo F p n y c t h
    dsimp only
    generalize updateDown F p n y c t = r at hd
    have hb : BwLo n y r.1 r.2 := by
      rcases hd with ⟨h1, h2⟩ | ⟨h1, h2⟩ | ⟨h1, h2⟩
      · exact ⟨Or.inl ⟨h1, h2⟩, fun k => absurd k (no h (by decide) (by decide)), fun k => (by rw [h] at k; cases k), fun _ => Or.inr ⟨h1, h2⟩,
          fun _ k => (by rw [h2] at k; cases k)⟩
      · exact ⟨Or.inr h1.keep, fun k => absurd k (no h (by decide) (by decide)), fun k => (by rw [h] at k; cases k),
          fun k => absurd k (no h2 (by decide) (by decide)), fun _ _ => h1⟩
      · exact ⟨Or.inr h1.keep, fun k => absurd k (no h (by decide) (by decide)), fun k => (by rw [h] at k; cases k),
          fun k => absurd k (no h2 (by decide) (by decide)), fun _ k => (by rw [h2] at k; cases k)⟩
    split
    · obtain ⟨e1, e2⟩ := expireRtt_lo p r.1 c
      exact hb.same e1 e2
    · exact hb
  · next h =>
    dsimp only
    rcases updateCruise_lo F p n y c t h with ⟨h1, h2⟩ | ⟨h1, h2⟩
    · exact ⟨Or.inl ⟨h1, h2⟩, fun k => absurd k (no h (by decide) (by decide)), fun k => (by rw [h] at k; cases k), fun _ => Or.inr ⟨h1, h2⟩,
        fun k => (by rw [h] at k; cases k)⟩
    · exact ⟨Or.inr h1.keep, fun k => absurd k (no h (by decide) (by decide)), fun k => (by rw [h] at k; cases k),
        fun k => absurd k (no h2 (by decide) (by decide)), fun k => (by rw [h] at k; cases k)⟩
  · next h =>
    obtain ⟨h1, h2⟩ := updateRefill_lo F p n y c t h
    dsimp only
    exact ⟨Or.inr h1.keep, fun _ => h1.keep, fun _ => h2, fun _ => Or.inl ⟨Or.inl h, h1.keep⟩, fun k => (by rw [h] at k; cases k)⟩

theorem countRounds_phase (y : Cycle) (c : CEvent) : (countRounds y c).phase = y.phase := by
  unfold countRounds
  split <;> rfl

/-- The call, with the mode it leads to. -/
theorem onProbeBw_lo (F : Floats) (p : Params) (hp : p.loMode = .default) (n : Net) (y : Cycle) (c : CEvent) (t : Nat) :
    ∃ z, BwLo n y (onProbeBw F p n y c t).2 z ∧ ((onProbeBw F p n y c t).1 = .probeBw z ∨ ((onProbeBw F p n y c t).1 = .probeRtt z none ∧ y.phase = .down)) := by
  have h := updatePhase_lo F p hp n (countRounds y c) c t
  have hc := countRounds_phase y c
  have hd : (updatePhase F p n (countRounds y c) c t).1 = true → y.phase = .down := by
    unfold updatePhase
    rw [hc]
    split
    · exact fun h => by cases h
    · exact fun h => by cases h
    · next h => exact fun _ => h
    · exact fun h => by cases h
    · exact fun h => by cases h
  unfold onProbeBw
  dsimp only
  generalize updatePhase F p n (countRounds y c) c t = r at h hd
  have hb : BwLo n y r.2.1 r.2.2 := by
    have hcl : climbs (countRounds y c) ↔ climbs y := by unfold climbs; rw [hc]
    exact ⟨h.move, fun k => h.climb (hcl.2 k), fun k => h.refill (by rw [hc]; exact k), fun k => (h.later k).imp (fun a => ⟨hcl.1 a.1, a.2⟩) id,
      fun k => h.cruise (by rw [hc]; exact k)⟩
  split
  · next hr => exact ⟨r.2.2, hb.same ⟨rfl, rfl⟩ rfl, Or.inr ⟨rfl, hd hr⟩⟩
  · exact ⟨r.2.2, hb.same ⟨rfl, rfl⟩ rfl, Or.inl rfl⟩

/-- No lower bounds while probing. -/
def LoOk (m : Mode) (n : Net) : Prop :=
  match m with
  | .startup => Unset n
  | .drain _ => True
  | .probeBw y => climbs y → Unset n
  | .probeRtt _ _ => True

/-- PROBE_REFILL or PROBE_UP, or the former waiting for the end of ProbeRTT. -/
def Climbing : Mode → Prop
  | .startup => False
  | .drain _ => False
  | .probeBw y => climbs y
  | .probeRtt y _ => y.phase = .refill

/-- What an event does. -/
structure LoStep (n : Net) (m : Net) (b : Mode) : Prop where
  move : (Unset m ∧ Climbing b) ∨ KeepLo n m
  ok : LoOk b m

theorem loop_bw_lo (F : Floats) (p : Params) (hp : p.loMode = .default) (c : CEvent) (k : Nat) (b : Bbr) (y : Cycle) (hm : b.mode = .probeBw y) (ho : LoOk b.mode b.net) :
    LoStep b.net (b.loop F p c k).2.net (b.loop F p c k).2.mode ∧ (y.phase = .refill → Unset (b.loop F p c k).2.net ∧ Climbing (b.loop F p c k).2.mode) ∧
    (y.phase = .down → k ≠ 0 → ∀ z, (b.loop F p c k).2.mode = .probeBw z → z.phase = .cruise → CapLo b.net (b.loop F p c k).2.net) := by
  rw [hm] at ho
  cases k with
  | zero =>
    refine ⟨⟨Or.inr (SameLo.keep ⟨rfl, rfl⟩), by show LoOk b.mode b.net; rw [hm]; exact ho⟩, fun h => ?_, fun _ h => absurd rfl h⟩
    refine ⟨ho (Or.inl h), ?_⟩
    show Climbing b.mode
    rw [hm]; exact Or.inl h
  | succ k =>
    unfold Bbr.loop
    have hd : (b.doEvent F p c).net = (onProbeBw F p b.net y c (b.target F)).2 ∧ (b.doEvent F p c).mode = (onProbeBw F p b.net y c (b.target F)).1 := by
      unfold Bbr.doEvent; rw [hm]; exact ⟨rfl, rfl⟩
    obtain ⟨z, h1, h2⟩ := onProbeBw_lo F p hp b.net y c (b.target F)
    rw [← hd.1] at h1
    rw [← hd.2] at h2
    have ir : ∀ y, (b.doEvent F p c).mode = .probeRtt y none → _ := fun y hy => rtt_again F p c (b.doEvent F p c) y hy k
    generalize (b.doEvent F p c).loop F p c k = l at ir
    generalize b.doEvent F p c = d at h1 h2 ir
    have hu : climbs z → Unset d.net := fun hz => by
      rcases h1.later hz with ⟨a, k⟩ | ⟨a, -⟩
      · exact k.unset (ho a)
      · exact a
    rcases h2 with h2 | ⟨h2, h0⟩
    · rw [hm, h2, if_pos (by rfl)]
      refine ⟨⟨?_, by rw [h2]; exact hu⟩, fun h => ⟨hu (h1.refill h), by rw [h2]; exact h1.refill h⟩, fun h _ x hx hc => ?_⟩
      · exact h1.move.imp (fun a => ⟨a.1, by rw [h2]; exact Or.inl a.2⟩) id
      · have hx' : d.mode = .probeBw x := hx
        rw [h2] at hx'
        cases hx'
        exact h1.cruise h hc
    · rw [hm, h2, if_neg (fun h => by cases h)]
      obtain ⟨g1, e, g2⟩ := ir z h2
      rw [g1, g2]
      refine ⟨⟨h1.move.imp (fun a => ⟨a.1, a.2⟩) id, trivial⟩, fun h => ?_, fun _ _ x hx => by cases hx⟩
      rw [h0] at h; cases h

theorem enterProbeBw_lo (p : Params) (hp : p.loMode = .default) (n : Net) (y : Cycle) (now : Nat) (hy : y.phase = .notStarted ∨ y.phase = .cruise ∨ y.phase = .refill) :
    (Unset (enterProbeBw p n y now).1 ∧ (enterProbeBw p n y now).2.phase = .refill) ∨
    (KeepLo n (enterProbeBw p n y now).1 ∧ ¬climbs (enterProbeBw p n y now).2) := by
  unfold enterProbeBw
  dsimp only
  rcases hy with hy | hy | hy <;> rw [hy]
  · exact Or.inr ⟨(enterDown_lo p hp n _ false false now).1.keep, fun h => by rcases h with h | h <;> cases h⟩
  · exact Or.inr ⟨(enterCruise_lo n _ now).1.keep, fun h => by rcases h with h | h <;> cases h⟩
  · exact Or.inl ⟨⟨rfl, rfl⟩, rfl⟩

/-- From where ProbeBW is entered. -/
theorem loop_enter_lo {F : Floats} {p : Params} (hp : p.loMode = .default) {c : CEvent} {n : Net} (k : Nat) {d : Bbr} {z : Cycle} (hm : d.mode = .probeBw z)
    (h : (Unset d.net ∧ z.phase = .refill) ∨ (KeepLo n d.net ∧ ¬climbs z)) : LoStep n (d.loop F p c k).2.net (d.loop F p c k).2.mode := by
  rcases h with ⟨h1, h2⟩ | ⟨h1, h2⟩
  · obtain ⟨g1, g2, -⟩ := loop_bw_lo F p hp c k d z hm (by rw [hm]; exact fun _ => h1)
    exact ⟨Or.inl (g2 h2), g1.ok⟩
  · obtain ⟨g1, -, -⟩ := loop_bw_lo F p hp c k d z hm (by rw [hm]; exact fun h => absurd h h2)
    exact ⟨g1.move.imp id (fun g => h1.trans g), g1.ok⟩

theorem loop_drain_lo (F : Floats) (p : Params) (hp : p.loMode = .default) (c : CEvent) (k : Nat) (b : Bbr) (y : Cycle) (hm : b.mode = .drain y) (hy : y.phase = .notStarted) :
    LoStep b.net (b.loop F p c k).2.net (b.loop F p c k).2.mode := by
  cases k with
  | zero => exact ⟨Or.inr (SameLo.keep ⟨rfl, rfl⟩), by show LoOk b.mode b.net; rw [hm]; trivial⟩
  | succ k =>
    unfold Bbr.loop
    have hd : (KeepLo b.net (b.doEvent F p c).net ∧ (b.doEvent F p c).mode = .drain y) ∨
        (∃ z, (b.doEvent F p c).mode = .probeBw z ∧ ((Unset (b.doEvent F p c).net ∧ z.phase = .refill) ∨ (KeepLo b.net (b.doEvent F p c).net ∧ ¬climbs z))) := by
      unfold Bbr.doEvent
      rw [hm]
      dsimp only
      unfold onDrain
      dsimp only
      split
      · right
        refine ⟨_, rfl, ?_⟩
        exact (enterProbeBw_lo p hp { b.net with pacingGain := p.drainPacingGain, cwndGain := p.drainCwndGain } y c.now (Or.inl hy))
      · exact Or.inl ⟨SameLo.keep ⟨rfl, rfl⟩, rfl⟩
    rcases hd with ⟨h1, h2⟩ | ⟨z, h1, h2⟩
    · rw [hm, h2, if_pos (by rfl)]
      exact ⟨Or.inr h1, by rw [h2]; trivial⟩
    · rw [hm, h1, if_neg (fun h => by cases h)]
      exact loop_enter_lo hp k h1 h2

theorem growth_sameLo (F : Floats) (p : Params) (n : Net) (c : CEvent) : SameLo n (n.growth F p c).2 := by
  unfold Net.growth
  split
  · exact ⟨rfl, rfl⟩
  · split <;> exact ⟨rfl, rfl⟩

theorem onStartup_lo (F : Floats) (p : Params) (n : Net) (c : CEvent) (x : Option Exit) (cwnd : Nat) (h : Unset n) : Unset (onStartup F p n c x cwnd).2.1 := by
  unfold onStartup
  split
  · exact ⟨rfl, h.2⟩
  · split
    · exact h
    · dsimp only
      have h1 : Unset (startupPlateau F p n c x cwnd).2.1 := (growth_sameLo F p n c).keep.unset h
      generalize startupPlateau F p n c x cwnd = g at h1
      have h2 : Unset (startupQueue F p g.2.1 g.2.2 cwnd g.1).1 := by
        unfold startupQueue
        split
        · exact (checkQueue_sameLo F p g.2.1 queueGain).keep.unset h1
        · exact h1
      generalize startupQueue F p g.2.1 g.2.2 cwnd g.1 = q at h2
      have h3 : Unset (startupLoss F p q.1 c q.2 cwnd g.1).1 := by
        unfold startupLoss
        split
        · dsimp only
          unfold Net.checkLosses
          split
          · exact ⟨h2.1, h2.2⟩
          · exact h2
        · exact h2
      generalize startupLoss F p q.1 c q.2 cwnd g.1 = l at h3
      split
      · exact ⟨rfl, h3.2⟩
      · exact h3

/-- The calls of an event. -/
theorem loop_lo (F : Floats) (p : Params) (hp : p.loMode = .default) (c : CEvent) (k : Nat) (b : Bbr) (T : Nat) (hs : Sound T b.mode) (ho : LoOk b.mode b.net) :
    LoStep b.net (b.loop F p c k).2.net (b.loop F p c k).2.mode := by
  cases hm : b.mode with
  | drain y => rw [hm] at hs; exact loop_drain_lo F p hp c k b y hm hs
  | probeBw y => exact (loop_bw_lo F p hp c k b y hm ho).1
  | startup =>
    rw [hm] at ho
    cases k with
    | zero => exact ⟨Or.inr (SameLo.keep ⟨rfl, rfl⟩), by show LoOk b.mode b.net; rw [hm]; exact ho⟩
    | succ k =>
      unfold Bbr.loop
      have hd : (b.doEvent F p c).net = (onStartup F p b.net c b.exit b.cwnd).2.1 ∧ (b.doEvent F p c).mode = (onStartup F p b.net c b.exit b.cwnd).1 := by
        unfold Bbr.doEvent; rw [hm]; exact ⟨rfl, rfl⟩
      have h1 := onStartup_lo F p b.net c b.exit b.cwnd ho
      have h3 := (onStartup_bw F p b.net c b.exit b.cwnd).2
      rw [← hd.1] at h1
      rw [← hd.2] at h3
      have hk : KeepLo b.net (b.doEvent F p c).net := SameLo.keep ⟨h1.1.trans ho.1.symm, h1.2.trans ho.2.symm⟩
      have ig := fun (h : (b.doEvent F p c).mode = .drain (.new c.now)) => loop_drain_lo F p hp c k (b.doEvent F p c) _ h rfl
      generalize (b.doEvent F p c).loop F p c k = l at ig
      generalize b.doEvent F p c = d at h1 h3 ig hk
      rcases h3 with h3 | h3
      · rw [hm, h3, if_pos (by rfl)]
        exact ⟨Or.inr hk, by rw [h3]; exact h1⟩
      · rw [hm, if_neg (by rw [h3]; exact fun h => by cases h)]
        have g := ig h3
        exact ⟨g.move.imp id (fun g => hk.trans g), g.ok⟩
  | probeRtt y e =>
    rw [hm] at hs
    cases k with
    | zero => exact ⟨Or.inr (SameLo.keep ⟨rfl, rfl⟩), by show LoOk b.mode b.net; rw [hm]; trivial⟩
    | succ k =>
      unfold Bbr.loop
      have hd : (KeepLo b.net (b.doEvent F p c).net ∧ ∃ x, (b.doEvent F p c).mode = .probeRtt y x) ∨
          (∃ z, (b.doEvent F p c).mode = .probeBw z ∧ ((Unset (b.doEvent F p c).net ∧ z.phase = .refill) ∨ (KeepLo b.net (b.doEvent F p c).net ∧ ¬climbs z))) := by
        unfold Bbr.doEvent
        rw [hm]
        dsimp only
        unfold onProbeRtt
        split
        · exact Or.inl ⟨SameLo.keep ⟨rfl, rfl⟩, _, rfl⟩
        · split
          · exact Or.inr ⟨_, rfl, enterProbeBw_lo p hp b.net y c.now (Or.inr hs)⟩
          · exact Or.inl ⟨SameLo.keep ⟨rfl, rfl⟩, _, rfl⟩
      rcases hd with ⟨h1, x, h2⟩ | ⟨z, h1, h2⟩
      · rw [hm, h2, if_pos (by rfl)]
        exact ⟨Or.inr h1, by rw [h2]; trivial⟩
      · rw [hm, h1, if_neg (fun h => by cases h)]
        exact loop_enter_lo hp k h1 h2

/-- Coming out of quiescence. -/
theorem quiet_lo (p : Params) (hp : p.loMode = .default) (b : Bbr) (now inFlight T : Nat) (hs : Sound T b.mode) (ho : LoOk b.mode b.net) :
    LoStep b.net (if inFlight = 0 then b.exitQuiet p now else b).net (if inFlight = 0 then b.exitQuiet p now else b).mode := by
  have here : LoStep b.net b.net b.mode := ⟨Or.inr (SameLo.keep ⟨rfl, rfl⟩), ho⟩
  have back : ∀ y, (y.phase = .cruise ∨ y.phase = .refill) → LoStep b.net (intoProbeBw p b.net y now).2 (intoProbeBw p b.net y now).1 := by
    intro y hy
    have := enterProbeBw_lo p hp b.net y now (Or.inr hy)
    unfold intoProbeBw
    dsimp only
    generalize enterProbeBw p b.net y now = r at this
    rcases this with ⟨h1, h2⟩ | ⟨h1, h2⟩
    · exact ⟨Or.inl ⟨h1, Or.inl h2⟩, fun _ => h1⟩
    · exact ⟨Or.inr h1, fun h => absurd h h2⟩
  split
  · unfold Bbr.exitQuiet
    split
    · exact here
    · unfold Bbr.wake
      split
      · exact here
      · exact here
      · next y hy =>
        have hy' : b.mode = .probeBw y := hy
        refine ⟨Or.inr (SameLo.keep ⟨rfl, rfl⟩), ?_⟩
        show LoOk b.mode _
        rw [hy'] at ho ⊢
        exact ho
      · next y hy =>
        have hy' : b.mode = .probeRtt y none := hy
        rw [hy'] at hs
        exact back y hs
      · next y t hy =>
        have hy' : b.mode = .probeRtt y (some t) := hy
        split
        · rw [hy'] at hs
          exact back y hs
        · exact here
  · exact here

end Verif.Bbr
