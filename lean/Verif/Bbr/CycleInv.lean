import Verif.Bbr.NetInv

/-!
What the phases of ProbeBW do to the filter of bandwidth and to the upper bound on the bytes
in flight.
-/

namespace Verif.Bbr

/-- The filter of bandwidth has yet to be moved on in this cycle. -/
def pend (y : Cycle) : Prop := y.phase = .down ∧ y.advanced = false

/-- The filter as before. -/
def SameBw (n m : Net) : Prop := m.maxBw0 = n.maxBw0 ∧ m.maxBw1 = n.maxBw1

/-- The filter moved on. -/
def MovedBw (n m : Net) : Prop := SameBw n.advance m

theorem SameBw.trans {a b c : Net} (h : SameBw a b) (k : SameBw b c) : SameBw a c := ⟨k.1.trans h.1, k.2.trans h.2⟩

theorem SameBw.advance {a b : Net} (h : SameBw a b) : SameBw a.advance b.advance := by
  unfold Net.advance
  rw [h.2]
  split
  · exact h
  · exact ⟨rfl, rfl⟩

theorem SameBw.moved {a b c : Net} (h : SameBw a b) (k : MovedBw b c) : MovedBw a c := h.advance.trans k

theorem MovedBw.same {a b c : Net} (h : MovedBw a b) (k : SameBw b c) : MovedBw a c := SameBw.trans h k

/-- What the phases do, as long as the cycle is not begun anew. -/
def Turn (n : Net) (y : Cycle) (r : Net × Cycle) : Prop :=
  (SameBw n r.1 ∧ (pend r.2 ↔ pend y)) ∨ (pend y ∧ ¬pend r.2 ∧ MovedBw n r.1)

theorem Turn.refl (n : Net) (y : Cycle) : Turn n y (n, y) := Or.inl ⟨⟨rfl, rfl⟩, Iff.rfl⟩

theorem Turn.same {n : Net} {y : Cycle} {r : Net × Cycle} (h : SameBw n r.1) (hp : pend r.2 ↔ pend y) : Turn n y r := Or.inl ⟨h, hp⟩

theorem Turn.trans {n : Net} {y : Cycle} {r s : Net × Cycle} (h : Turn n y r) (k : Turn r.1 r.2 s) : Turn n y s := by
  rcases h with ⟨h1, h2⟩ | ⟨h1, h2, h3⟩
  · rcases k with ⟨k1, k2⟩ | ⟨k1, k2, k3⟩
    · exact Or.inl ⟨h1.trans k1, k2.trans h2⟩
    · exact Or.inr ⟨h2.1 k1, k2, h1.moved k3⟩
  · rcases k with ⟨k1, k2⟩ | ⟨k1, -, -⟩
    · exact Or.inr ⟨h1, fun hp => h2 (k2.1 hp), h3.same k1⟩
    · exact absurd k1 h2

/-- The filter is moved on once. -/
theorem advance_turn (n : Net) (y z : Cycle) (hy : pend y) (hz : ¬pend z) : Turn n y (n.advance, z) := Or.inr ⟨hy, hz, rfl, rfl⟩

theorem exitDown_turn (n : Net) (y : Cycle) : Turn n y (exitDown n y) ∧ ¬pend (exitDown n y).2 := by
  unfold exitDown
  split
  · next h =>
    have hz : ¬pend { y with advanced := true } := fun hp => by cases hp.2
    exact ⟨advance_turn n y _ h hz, hz⟩
  · next h => exact ⟨Turn.refl n y, h⟩

theorem capLo_bw (n : Net) (c : Nat) : SameBw n (n.capLo c) := by
  unfold Net.capLo
  split <;> exact ⟨rfl, rfl⟩

theorem enterCruise_turn (n : Net) (y : Cycle) (now : Nat) : Turn n y (enterCruise n y now) :=
  (exitDown_turn n y).1.trans (.same (capLo_bw _ _) (iff_of_false (fun hp => by cases hp.1) (exitDown_turn n y).2))

theorem enterRefill_turn (n : Net) (y : Cycle) (k now : Nat) : Turn n y (enterRefill n y k now) :=
  (exitDown_turn n y).1.trans (.same ⟨rfl, rfl⟩ (iff_of_false (fun hp => by cases hp.1) (exitDown_turn n y).2))

theorem lowerHi_bw (F : Floats) (p : Params) (n : Net) (c : CEvent) (t : Nat) : SameBw n (lowerHi F p n c t) := by
  unfold lowerHi
  split <;> exact ⟨rfl, rfl⟩

/-- What the adaptation of the upper bound leaves alone. -/
theorem adaptUpper_turn (F : Floats) (p : Params) (n : Net) (y : Cycle) (c : CEvent) (t : Nat) :
    Turn n y (adaptUpper F p n y c t).2 ∧ (adaptUpper F p n y c t).2.2.phase = y.phase := by
  unfold adaptUpper
  split
  · exact ⟨.refl n y, rfl⟩
  · dsimp only
    split
    · split
      · exact ⟨.same (SameBw.trans (b := { n with bad := n.bad || (p.deliveredForHi && decide (n.sampler.acked < c.state.acked)) }) ⟨rfl, rfl⟩ (lowerHi_bw F p _ c t)) Iff.rfl, rfl⟩
      · exact ⟨.same ⟨rfl, rfl⟩ Iff.rfl, rfl⟩
    · split
      · exact ⟨.same ⟨rfl, rfl⟩ Iff.rfl, rfl⟩
      · exact ⟨.same ⟨rfl, rfl⟩ Iff.rfl, rfl⟩

/-- The filter is moved on in the first round of PROBE_DOWN, if it is. -/
structure Fresh (T : Nat) (y : Cycle) : Prop where
  since : y.phase = .down → y.phaseStart ≤ T
  once : y.phase = .down → y.advanced = true → 1 ≤ y.rounds
  after : y.phase = .down → 1 ≤ y.rounds → y.phaseStart < T

theorem Fresh.of {T : Nat} {y : Cycle} (h : y.phase ≠ .down) : Fresh T y := ⟨fun k => absurd k h, fun k => absurd k h, fun k => absurd k h⟩

theorem Fresh.same {T : Nat} {y z : Cycle} (h : Fresh T y) (h1 : z.phase = y.phase) (h2 : z.phaseStart = y.phaseStart) (h3 : z.advanced = y.advanced)
    (h4 : z.rounds = y.rounds) : Fresh T z :=
  ⟨by rw [h1, h2]; exact h.since, by rw [h1, h3, h4]; exact h.once, by rw [h1, h2, h4]; exact h.after⟩

theorem Fresh.mono {T U : Nat} {y : Cycle} (h : Fresh T y) (hu : T ≤ U) : Fresh U y :=
  ⟨fun k => Nat.le_trans (h.since k) hu, h.once, fun k l => Nat.lt_of_lt_of_le (h.after k l) hu⟩

/-- The rounds are counted: the first is not over twice. -/
theorem countRounds_fresh {T : Nat} {y : Cycle} (h : Fresh T y) (c : CEvent) (hc : T ≤ c.now) :
    Fresh c.now (countRounds y c) ∧ ((countRounds y c).phase = .down → (countRounds y c).rounds = 1 → c.endRound = true → (countRounds y c).advanced = false) ∧
    (countRounds y c).phase = y.phase ∧ (countRounds y c).advanced = y.advanced ∧ (countRounds y c).fromProbing = y.fromProbing := by
  unfold countRounds
  by_cases he : c.endRound = true
  · rw [if_pos he]
    dsimp only
    by_cases hs : y.phaseStart ≠ c.now
    · rw [if_pos hs]
      refine ⟨⟨fun k => Nat.le_trans (h.since k) hc, fun _ _ => Nat.le_add_left 1 _, fun k _ => ?_⟩, fun k l _ => ?_, rfl, rfl, rfl⟩
      · have := h.since k
        show y.phaseStart < c.now
        omega
      · have h0 : y.rounds = 0 := by have : y.rounds + 1 = 1 := l; omega
        cases ha : y.advanced with
        | false => rfl
        | true => have := h.once k ha; omega
    · rw [if_neg hs]
      have hs' : y.phaseStart = c.now := Decidable.not_not.1 hs
      refine ⟨⟨fun _ => Nat.le_of_eq hs', h.once, fun k l => absurd (h.after k l) (by omega)⟩, fun k l _ => ?_, rfl, rfl, rfl⟩
      have := h.after k (Nat.le_of_eq l.symm)
      omega
  · rw [if_neg he]
    exact ⟨h.mono hc, fun _ _ k => absurd k he, rfl, rfl, rfl⟩

theorem firstRound_turn (n : Net) (y : Cycle) (c : CEvent) (h : y.phase = .down) (ha : y.advanced = false) : Turn n y (firstRound n y c) := by
  unfold firstRound
  cases hc : c.state.appLimited with
  | false =>
    rw [if_pos rfl]
    exact advance_turn n y _ ⟨h, ha⟩ (fun hp => by have := hp.2; simp at this)
  | true =>
    rw [if_neg (by decide)]
    exact .same ⟨rfl, rfl⟩ ⟨fun _ => ⟨h, ha⟩, fun _ => ⟨h, by dsimp only; rw [ha]; rfl⟩⟩

/-- What the adaptation of the upper bound does to the cycle. -/
theorem adaptUpper_cycle (F : Floats) (p : Params) (n : Net) (y : Cycle) (c : CEvent) (t : Nat) :
    (adaptUpper F p n y c t).2.2 = y ∨ (adaptUpper F p n y c t).2.2 = { y with fromProbing := false } := by
  unfold adaptUpper
  split
  · exact Or.inl rfl
  · dsimp only
    split
    · split
      · exact Or.inr rfl
      · exact Or.inl rfl
    · split <;> exact Or.inl rfl

theorem adaptUpper_fresh {T : Nat} (F : Floats) (p : Params) (n : Net) {y : Cycle} (c : CEvent) (t : Nat) (h : Fresh T y) : Fresh T (adaptUpper F p n y c t).2.2 := by
  rcases adaptUpper_cycle F p n y c t with k | k <;> rw [k]
  · exact h
  · exact h.same rfl rfl rfl rfl

theorem needWait_turn {n : Net} {y : Cycle} {r : Net × Cycle} (h : Turn n y r) : Turn n y (needWait r.1 r.2, r.2) := h.trans (.same ⟨rfl, rfl⟩ Iff.rfl)

/-- What a phase comes to: the filter and the cycle. -/
structure Went (T : Nat) (n : Net) (y : Cycle) (r : Net × Cycle) : Prop where
  turn : Turn n y r
  fresh : Fresh T r.2

theorem enterCruise_went (T : Nat) (n : Net) (y : Cycle) (now : Nat) : Went T n y (enterCruise n y now) := ⟨enterCruise_turn n y now, .of (fun h => by cases h)⟩

theorem enterRefill_went (T : Nat) (n : Net) (y : Cycle) (k now : Nat) : Went T n y (enterRefill n y k now) := ⟨enterRefill_turn n y k now, .of (fun h => by cases h)⟩

theorem Went.after {T : Nat} {n : Net} {y : Cycle} {r s : Net × Cycle} (h : Turn n y r) (k : Went T r.1 r.2 s) : Went T n y s := ⟨h.trans k.turn, k.fresh⟩

theorem downRest_went {T : Nat} (F : Floats) (p : Params) (n : Net) {y : Cycle} (c : CEvent) (t : Nat) (h : Fresh T y) (hd : y.phase = .down) :
    Went T n y (downRest F p n y c t) ∧ ((downRest F p n y c t).2.phase = .down ∨ (downRest F p n y c t).2.phase = .cruise ∨ (downRest F p n y c t).2.phase = .refill) := by
  have ht := needWait_turn (adaptUpper_turn F p n y c t).1
  have hp := (adaptUpper_turn F p n y c t).2
  have hf := adaptUpper_fresh F p n c t h
  unfold downRest
  dsimp only
  generalize adaptUpper F p n y c t = a at ht hp hf
  rw [hd] at hp
  split
  · exact ⟨.after ht (enterRefill_went T _ _ _ _), Or.inr (Or.inr rfl)⟩
  · split
    · exact ⟨.after ht (enterCruise_went T _ _ _), Or.inr (Or.inl rfl)⟩
    · split
      · exact ⟨⟨ht, hf⟩, Or.inl hp⟩
      · split
        · exact ⟨.after ht (enterCruise_went T _ _ _), Or.inr (Or.inl rfl)⟩
        · exact ⟨⟨ht, hf⟩, Or.inl hp⟩

theorem updateDown_went {T : Nat} (F : Floats) (p : Params) (n : Net) {y : Cycle} (c : CEvent) (t : Nat) (h : Fresh T y) (hd : y.phase = .down)
    (ha : y.rounds = 1 → c.endRound = true → y.advanced = false) :
    Went T n y (updateDown F p n y c t) ∧ ((updateDown F p n y c t).2.phase = .down ∨ (updateDown F p n y c t).2.phase = .cruise ∨ (updateDown F p n y c t).2.phase = .refill) := by
  unfold updateDown
  split
  · next hr =>
    have ht := firstRound_turn n y c hd (ha hr.1 hr.2)
    have hf : Fresh T (firstRound n y c).2 := ⟨h.since, fun _ _ => Nat.le_of_eq hr.1.symm, h.after⟩
    have hp : (firstRound n y c).2.phase = .down := hd
    dsimp only
    generalize firstRound n y c = r at ht hf hp
    split
    · exact ⟨.after ht (enterRefill_went T _ _ _ _), Or.inr (Or.inr rfl)⟩
    · obtain ⟨k1, k2⟩ := downRest_went F p r.1 c t hf hp
      exact ⟨.after ht k1, k2⟩
  · exact downRest_went F p n c t h hd

theorem updateCruise_went {T : Nat} (F : Floats) (p : Params) (n : Net) {y : Cycle} (c : CEvent) (t : Nat) (h : Fresh T y) : Went T n y (updateCruise F p n y c t) := by
  have ht := needWait_turn (adaptUpper_turn F p n y c t).1
  have hf := adaptUpper_fresh F p n c t h
  unfold updateCruise
  dsimp only
  split
  · exact .after ht (enterRefill_went T _ _ _ _)
  · exact ⟨ht, hf⟩

theorem updateRefill_went {T : Nat} (F : Floats) (p : Params) (n : Net) {y : Cycle} (c : CEvent) (t : Nat) (h : Fresh T y) (hr : y.phase = .refill) :
    Went T n y (updateRefill F p n y c t) := by
  have ht := (adaptUpper_turn F p n y c t).1
  have hf := adaptUpper_fresh F p n c t h
  have hp := (adaptUpper_turn F p n y c t).2.trans hr
  unfold updateRefill
  dsimp only
  split
  · exact .after ht ⟨.same ⟨rfl, rfl⟩ (iff_of_false (fun hp => by cases hp.1) (fun k => by have := k.1; rw [hp] at this; cases this)), .of (fun h => by cases h)⟩
  · exact ⟨ht, hf⟩

theorem enterDown_fresh (p : Params) (n : Net) (y : Cycle) (t r : Bool) (now : Nat) : Fresh now (enterDown p n y t r now).2 :=
  ⟨fun _ => Nat.le_refl _, (fun _ h => by cases h), (fun _ h => by cases h)⟩

theorem growHi_up (n : Net) (y : Cycle) : SameBw n (growHi n y).1 ∧ (growHi n y).2.phase = y.phase := by
  unfold growHi
  split
  · exact ⟨⟨rfl, rfl⟩, rfl⟩
  · split <;> exact ⟨⟨rfl, rfl⟩, rfl⟩

theorem probeUpward_up (p : Params) (n : Net) (y : Cycle) (c : CEvent) : SameBw n (probeUpward p n y c).1 ∧ (probeUpward p n y c).2.phase = y.phase := by
  unfold probeUpward
  split
  · exact ⟨⟨rfl, rfl⟩, rfl⟩
  · split
    · exact ⟨⟨rfl, rfl⟩, rfl⟩
    · split
      · exact ⟨⟨rfl, rfl⟩, rfl⟩
      · dsimp only
        have h := growHi_up n { y with upAcked := y.upAcked + c.acked }
        split
        · exact ⟨h.1.trans ⟨rfl, rfl⟩, h.2⟩
        · exact h

theorem upQueue_bw (F : Floats) (p : Params) (n : Net) (y : Cycle) (c : CEvent) : SameBw n (upQueue F p n y c).2 := by
  unfold upQueue
  split
  · split
    · split
      · dsimp only
        unfold Net.checkQueue
        split <;> exact ⟨rfl, rfl⟩
      · exact ⟨rfl, rfl⟩
    · exact ⟨rfl, rfl⟩
  · exact ⟨rfl, rfl⟩

/-- PROBE_UP leaves the filter alone; it goes on or ends in PROBE_DOWN. -/
theorem updateUp_went (F : Floats) (p : Params) (n : Net) {y : Cycle} (c : CEvent) (t : Nat) (hu : y.phase = .up) :
    SameBw n (updateUp F p n y c t).1 ∧ Fresh c.now (updateUp F p n y c t).2 ∧ ((updateUp F p n y c t).2.phase = .up ∨ pend (updateUp F p n y c t).2) := by
  have hn : ¬pend y := fun hp => by rw [hp.1] at hu; cases hu
  obtain ⟨ht, hp⟩ := adaptUpper_turn F p n y c t
  have hb : SameBw n (adaptUpper F p n y c t).2.1 := by
    rcases ht with h | h
    · exact h.1
    · exact absurd h.1 hn
  unfold updateUp
  dsimp only
  generalize adaptUpper F p n y c t = a at hb hp
  split
  · exact ⟨hb.trans ⟨rfl, rfl⟩, enterDown_fresh p _ _ _ _ _, Or.inr ⟨rfl, rfl⟩⟩
  · have h2 := probeUpward_up p a.2.1 a.2.2 c
    generalize probeUpward p a.2.1 a.2.2 c = u at h2
    have hb2 := hb.trans h2.1
    have hp2 : u.2.phase = .up := h2.2.trans (hp.trans hu)
    split
    · exact ⟨hb2.trans ⟨rfl, rfl⟩, enterDown_fresh p _ _ _ _ _, Or.inr ⟨rfl, rfl⟩⟩
    · have hb3 := hb2.trans (upQueue_bw F p u.1 u.2 c)
      split
      · exact ⟨hb3.trans ⟨rfl, rfl⟩, enterDown_fresh p _ _ _ _ _, Or.inr ⟨rfl, rfl⟩⟩
      · exact ⟨hb3, .of (by rw [hp2]; decide), Or.inl hp2⟩

/-- One call of ProbeBW: to ProbeRTT only out of PROBE_DOWN. -/
structure Called2 (now : Nat) (n : Net) (y : Cycle) (r : Mode × Net) : Prop where
  bw : (∃ z, r.1 = .probeBw z ∧ Fresh now z ∧ ((Turn n y (r.2, z) ∧ ¬(y.phase = .up ∧ z.phase = .down)) ∨ (SameBw n r.2 ∧ y.phase = .up ∧ pend z))) ∨
    ∃ z, r.1 = .probeRtt z none ∧ (z.phase = .cruise ∨ z.phase = .refill) ∧ Turn n y (r.2, z) ∧ y.phase = .down

theorem expireRtt_bw (p : Params) (n : Net) (c : CEvent) : SameBw n (n.expireRtt p c).2 := by
  rcases expireRtt_calm p n c with h | ⟨r, -, -, h⟩ <;> rw [h] <;> exact ⟨rfl, rfl⟩

theorem onProbeBw_called {T : Nat} (F : Floats) (p : Params) (n : Net) {y : Cycle} (c : CEvent) (t : Nat) (h : Fresh T y) (hc : T ≤ c.now) :
    Called2 c.now n y (onProbeBw F p n y c t) := by
  obtain ⟨hf, h1, hp, ha, -⟩ := countRounds_fresh h c hc
  have hpend : pend (countRounds y c) ↔ pend y := by unfold pend; rw [hp, ha]
  have h0 : Turn n y (n, countRounds y c) := .same ⟨rfl, rfl⟩ hpend
  refine ⟨?_⟩
  unfold onProbeBw updatePhase
  rw [← hp]
  generalize countRounds y c = w at hf h1 h0
  cases hw : w.phase with
  | notStarted => exact Or.inl ⟨w, rfl, hf, Or.inl ⟨h0.trans (.same ⟨rfl, rfl⟩ Iff.rfl), fun k => by cases k.1⟩⟩
  | up =>
    obtain ⟨k1, k2, k3⟩ := updateUp_went F p n c t hw
    refine Or.inl ⟨_, rfl, k2, ?_⟩
    rcases k3 with k3 | k3
    · exact Or.inl ⟨h0.trans (.same (SameBw.trans k1 ⟨rfl, rfl⟩) (iff_of_false (fun hq => by have := hq.1; dsimp only at this; rw [k3] at this; cases this) (fun hq => by have := hq.1; rw [hw] at this; cases this))),
        fun k => by rw [k3] at k; cases k.2⟩
    · exact Or.inr ⟨SameBw.trans k1 ⟨rfl, rfl⟩, rfl, k3⟩
  | cruise =>
    have k := updateCruise_went F p n c t hf
    exact Or.inl ⟨_, rfl, k.fresh, Or.inl ⟨h0.trans (k.turn.trans (.same ⟨rfl, rfl⟩ Iff.rfl)), fun k => by cases k.1⟩⟩
  | refill =>
    have k := updateRefill_went F p n c t hf hw
    exact Or.inl ⟨_, rfl, k.fresh, Or.inl ⟨h0.trans (k.turn.trans (.same ⟨rfl, rfl⟩ Iff.rfl)), fun k => by cases k.1⟩⟩
  | down =>
    obtain ⟨k, kp⟩ := updateDown_went F p n c t hf hw (h1 hw)
    dsimp only
    generalize updateDown F p n w c t = d at k kp
    by_cases hd : d.2.phase ≠ .down
    · rw [if_pos hd]
      have hx := expireRtt_bw p d.1 c
      generalize d.1.expireRtt p c = x at hx
      dsimp only
      have kt : Turn n y (x.2, d.2) := h0.trans (k.turn.trans (.same hx Iff.rfl))
      split
      · exact Or.inr ⟨_, rfl, kp.resolve_left hd, kt.trans (.same ⟨rfl, rfl⟩ Iff.rfl), rfl⟩
      · exact Or.inl ⟨_, rfl, k.fresh, Or.inl ⟨kt.trans (.same ⟨rfl, rfl⟩ Iff.rfl), fun k => by cases k.1⟩⟩
    · rw [if_neg hd]
      exact Or.inl ⟨_, rfl, k.fresh, Or.inl ⟨h0.trans (k.turn.trans (.same ⟨rfl, rfl⟩ Iff.rfl)), fun k => by cases k.1⟩⟩

/-! ### Modes -/

/-- The filter has yet to be moved on. -/
def pendM : Mode → Prop
  | .probeBw y => pend y
  | _ => False

/-- The cycle is as the mode needs it. -/
def Sound (T : Nat) : Mode → Prop
  | .startup => True
  | .drain y => y.phase = .notStarted
  | .probeBw y => Fresh T y
  | .probeRtt y _ => y.phase = .cruise ∨ y.phase = .refill

/-- PROBE_DOWN is entered. -/
def Enters (a b : Mode) : Prop :=
  (∃ y z, a = .probeBw y ∧ b = .probeBw z ∧ y.phase = .up ∧ z.phase = .down) ∨ (a.kind < 2 ∧ 2 ≤ b.kind)

/-- What an event does to the filter, from one mode to another. -/
structure Filtered (n : Net) (a : Mode) (m : Net) (b : Mode) : Prop where
  bw : SameBw n m ∨ (MovedBw n m ∧ ¬pendM b)
  enter : a.kind = 2 → Enters a b → SameBw n m ∧ pendM b
  stay : ¬Enters a b → (SameBw n m ∧ (pendM b ↔ pendM a)) ∨ (pendM a ∧ MovedBw n m ∧ ¬pendM b)

theorem Filtered.turn {n m : Net} {a b : Mode} (h : (SameBw n m ∧ (pendM b ↔ pendM a)) ∨ (pendM a ∧ MovedBw n m ∧ ¬pendM b))
    (hn : a.kind = 2 → ¬Enters a b) : Filtered n a m b := by
  refine ⟨?_, fun h2 he => absurd he (hn h2), fun _ => h⟩
  rcases h with h | h
  · exact Or.inl h.1
  · exact Or.inr h.2

theorem kind_not {n : Nat} {a : Mode} {b : Mode} (h : a.kind = n) (hn : n ≠ 2) : a.kind = 2 → ¬Enters a b := fun k => absurd (h.symm.trans k) hn

/-- Back from ProbeRTT, or at rest. -/
theorem back_probe (p : Params) (n : Net) (y : Cycle) (now : Nat) (h : y.phase = .cruise ∨ y.phase = .refill) :
    SameBw n (enterProbeBw p n y now).1 ∧ ((enterProbeBw p n y now).2.phase = .cruise ∨ (enterProbeBw p n y now).2.phase = .refill) ∧
    (enterProbeBw p n y now).2.fromProbing = false ∧ (enterProbeBw p n y now).1.inflightHi = n.inflightHi := by
  unfold enterProbeBw
  dsimp only
  have hx : ∀ z : Cycle, z.phase ≠ .down → exitDown n z = (n, z) := by
    intro z hz
    unfold exitDown
    rw [if_neg fun k => hz k.1]
  rcases h with h | h
  · rw [h]
    dsimp only
    unfold enterCruise
    dsimp only
    rw [hx _ (fun k => by cases k)]
    refine ⟨capLo_bw _ _, Or.inl rfl, rfl, ?_⟩
    dsimp only
    unfold Net.capLo
    split <;> rfl
  · rw [h]
    dsimp only
    unfold enterRefill
    dsimp only
    rw [hx _ (fun k => by cases k)]
    exact ⟨⟨rfl, rfl⟩, Or.inr rfl, rfl, rfl⟩

theorem growth_bw (F : Floats) (p : Params) (n : Net) (c : CEvent) : SameBw n (n.growth F p c).2 := by
  unfold Net.growth
  split
  · exact ⟨rfl, rfl⟩
  · split <;> exact ⟨rfl, rfl⟩

theorem checkQueue_bw (F : Floats) (p : Params) (n : Net) (g : Nat) : SameBw n (n.checkQueue F p g) := by
  unfold Net.checkQueue
  split <;> exact ⟨rfl, rfl⟩

theorem checkLosses_bw (F : Floats) (p : Params) (n : Net) (c : CEvent) : SameBw n (n.checkLosses F p c) := by
  unfold Net.checkLosses
  split <;> exact ⟨rfl, rfl⟩

/-- Startup leaves the filter alone. -/
theorem onStartup_bw (F : Floats) (p : Params) (n : Net) (c : CEvent) (x : Option Exit) (cwnd : Nat) :
    SameBw n (onStartup F p n c x cwnd).2.1 ∧ ((onStartup F p n c x cwnd).1 = .startup ∨ (onStartup F p n c x cwnd).1 = .drain (.new c.now)) := by
  unfold onStartup
  split
  · exact ⟨⟨rfl, rfl⟩, Or.inr rfl⟩
  · split
    · exact ⟨⟨rfl, rfl⟩, Or.inl rfl⟩
    · have h1 : SameBw n (startupPlateau F p n c x cwnd).2.1 := growth_bw F p n c
      dsimp only
      generalize startupPlateau F p n c x cwnd = g at h1
      have h2 : SameBw n (startupQueue F p g.2.1 g.2.2 cwnd g.1).1 := by
        unfold startupQueue
        split
        · exact h1.trans (checkQueue_bw F p _ _)
        · exact h1
      generalize startupQueue F p g.2.1 g.2.2 cwnd g.1 = q at h2
      have h3 : SameBw n (startupLoss F p q.1 c q.2 cwnd g.1).1 := by
        unfold startupLoss
        split
        · exact h2.trans (checkLosses_bw F p _ c)
        · exact h2
      generalize startupLoss F p q.1 c q.2 cwnd g.1 = l at h3
      split
      · exact ⟨h3.trans ⟨rfl, rfl⟩, Or.inr rfl⟩
      · exact ⟨h3, Or.inl rfl⟩

/-- A second call in ProbeRTT. -/
theorem rtt_again (F : Floats) (p : Params) (c : CEvent) (b : Bbr) (y : Cycle) (hm : b.mode = .probeRtt y none) (k : Nat) :
    (b.loop F p c k).2.net = b.net ∧ ∃ e, (b.loop F p c k).2.mode = .probeRtt y e := by
  cases k with
  | zero => exact ⟨rfl, none, hm⟩
  | succ k =>
    have hd : b.doEvent F p c = { b with mode := (onProbeRtt F p b.net y none c).1 } := by
      unfold Bbr.doEvent
      rw [hm]
      rfl
    unfold Bbr.loop
    rw [if_pos (by rw [hd, hm]; rfl), hd]
    exact ⟨rfl, _, rfl⟩

/-- The calls of an event. -/
theorem loop_filtered (F : Floats) (p : Params) (c : CEvent) : ∀ (k : Nat) (b : Bbr) (T : Nat), Sound T b.mode → T ≤ c.now →
    Filtered b.net b.mode (b.loop F p c k).2.net (b.loop F p c k).2.mode ∧ Sound c.now (b.loop F p c k).2.mode ∧
    (2 ≤ b.mode.kind → 2 ≤ (b.loop F p c k).2.mode.kind)
  | 0, b, T, hs, ht => by
    refine ⟨.turn (Or.inl ⟨⟨rfl, rfl⟩, Iff.rfl⟩) (fun hk he => ?_), ?_, id⟩
    · rcases he with ⟨y, z, e1, e2, e3, e4⟩ | ⟨e1, -⟩
      · have e2' : b.mode = .probeBw z := e2
        rw [e1] at e2'
        cases e2'
        rw [e3] at e4
        cases e4
      · rw [hk] at e1; exact absurd e1 (Nat.lt_irrefl 2)
    · show Sound c.now b.mode
      cases hm : b.mode with
      | startup => trivial
      | drain y => rw [hm] at hs; exact hs
      | probeBw y => rw [hm] at hs; exact Fresh.mono hs ht
      | probeRtt y e => rw [hm] at hs; exact hs
  | k + 1, b, T, hs, ht => by
    unfold Bbr.loop
    have ih : ∀ S, Sound S (b.doEvent F p c).mode → S ≤ c.now → _ := fun S => loop_filtered F p c k (b.doEvent F p c) S
    have ir : ∀ y, (b.doEvent F p c).mode = .probeRtt y none → _ := fun y hy => rtt_again F p c (b.doEvent F p c) y hy k
    generalize (b.doEvent F p c).loop F p c k = l at ih ir
    cases hm : b.mode with
    | startup =>
      have hd : (b.doEvent F p c).net = (onStartup F p b.net c b.exit b.cwnd).2.1 ∧ (b.doEvent F p c).mode = (onStartup F p b.net c b.exit b.cwnd).1 := by
        unfold Bbr.doEvent; rw [hm]; exact ⟨rfl, rfl⟩
      obtain ⟨h1, h2⟩ := onStartup_bw F p b.net c b.exit b.cwnd
      rw [← hd.1] at h1
      rw [← hd.2] at h2
      generalize b.doEvent F p c = d at h1 h2 ih
      rcases h2 with h2 | h2
      · rw [h2, if_pos (by rfl)]
        exact ⟨.turn (Or.inl ⟨h1, by rw [h2]⟩) (kind_not (n := 0) rfl (by decide)), by rw [h2]; trivial, fun h => absurd h (by show ¬(2 ≤ 0); decide)⟩
      · rw [h2, if_neg (fun h => by cases h)]
        obtain ⟨g1, g2, -⟩ := ih c.now (by rw [h2]; rfl) (Nat.le_refl _)
        rw [h2] at g1
        refine ⟨⟨?_, fun k => (by cases k), fun hn => ?_⟩, g2, fun h => absurd h (by show ¬(2 ≤ 0); decide)⟩
        · rcases g1.bw with g | g
          · exact Or.inl (h1.trans g)
          · exact Or.inr ⟨h1.moved g.1, g.2⟩
        · rcases g1.stay (fun he => hn (by
            rcases he with ⟨y, z, e1, -⟩ | ⟨-, e2⟩
            · cases e1
            · exact Or.inr ⟨(by decide : 0 < 2), e2⟩)) with g | g
          · exact Or.inl ⟨h1.trans g.1, g.2⟩
          · exact g.1.elim
    | drain y =>
      rw [hm] at hs
      have hd : (b.doEvent F p c).net = (onDrain F p b.net y c).2 ∧ (b.doEvent F p c).mode = (onDrain F p b.net y c).1 := by
        unfold Bbr.doEvent; rw [hm]; exact ⟨rfl, rfl⟩
      have h12 : SameBw b.net (onDrain F p b.net y c).2 ∧ ((onDrain F p b.net y c).1 = .drain y ∨ ∃ z, (onDrain F p b.net y c).1 = .probeBw z ∧ Fresh c.now z) := by
        have hs' : y.phase = .notStarted := hs
        unfold onDrain
        dsimp only
        split
        · unfold intoProbeBw enterProbeBw
          dsimp only
          rw [hs']
          exact ⟨⟨rfl, rfl⟩, Or.inr ⟨_, rfl, enterDown_fresh p _ _ _ _ _⟩⟩
        · exact ⟨⟨rfl, rfl⟩, Or.inl rfl⟩
      obtain ⟨h1, h2⟩ := h12
      rw [← hd.1] at h1
      rw [← hd.2] at h2
      generalize b.doEvent F p c = d at h1 h2 ih
      rcases h2 with h2 | ⟨z, h2, h3⟩
      · rw [h2, if_pos (by rfl)]
        exact ⟨.turn (Or.inl ⟨h1, by rw [h2]⟩) (kind_not (n := 1) rfl (by decide)), by rw [h2]; exact hs, fun h => absurd h (by show ¬(2 ≤ 1); decide)⟩
      · rw [h2, if_neg (fun h => by cases h)]
        obtain ⟨g1, g2, g3⟩ := ih c.now (by rw [h2]; exact h3) (Nat.le_refl _)
        rw [h2] at g1 g3
        refine ⟨⟨?_, fun k => (by cases k), fun hn => absurd (Or.inr ⟨(by decide : 1 < 2), g3 (Nat.le_refl 2)⟩) hn⟩, g2, fun h => absurd h (by show ¬(2 ≤ 1); decide)⟩
        rcases g1.bw with g | g
        · exact Or.inl (h1.trans g)
        · exact Or.inr ⟨h1.moved g.1, g.2⟩
    | probeBw y =>
      rw [hm] at hs
      have hd : (b.doEvent F p c).net = (onProbeBw F p b.net y c (b.target F)).2 ∧ (b.doEvent F p c).mode = (onProbeBw F p b.net y c (b.target F)).1 := by
        unfold Bbr.doEvent; rw [hm]; exact ⟨rfl, rfl⟩
      obtain ⟨h1⟩ := onProbeBw_called F p b.net c (b.target F) hs ht
      rw [← hd.1, ← hd.2] at h1
      generalize b.doEvent F p c = d at h1 ih ir
      rcases h1 with ⟨z, h2, h3, h4⟩ | ⟨z, h2, h3, h4, h5⟩
      · rw [h2, if_pos (by rfl)]
        refine ⟨?_, by rw [h2]; exact h3, fun _ => by rw [h2]; exact Nat.le_refl 2⟩
        rw [h2]
        rcases h4 with ⟨h4, h5⟩ | ⟨h4, h5, h6⟩
        · refine .turn ?_ (fun _ he => ?_)
          rotate_left
          · rcases he with ⟨y', z', e1, e2, e3, e4⟩ | ⟨e1, -⟩
            · cases e1; cases e2; exact h5 ⟨e3, e4⟩
            · exact absurd e1 (Nat.lt_irrefl 2)
          rcases h4 with h4 | ⟨q1, q2, q3⟩
          · exact Or.inl h4
          · exact Or.inr ⟨q1, q3, q2⟩
        · exact ⟨Or.inl h4, fun _ _ => ⟨h4, h6⟩, fun hn => absurd (Or.inl ⟨y, z, rfl, rfl, h5, h6.1⟩) hn⟩
      · rw [h2, if_neg (fun h => by cases h)]
        obtain ⟨g1, e, g2⟩ := ir z h2
        rw [g1, g2]
        refine ⟨.turn ?_ (fun _ he => ?_), h3, fun _ => (by decide : 2 ≤ 3)⟩
        rotate_left
        · rcases he with ⟨y', z', e1, e2, -⟩ | ⟨e1, -⟩
          · cases e2
          · exact absurd e1 (Nat.lt_irrefl 2)
        have hz : ¬pend z := fun k => by rcases h3 with h3 | h3 <;> rw [k.1] at h3 <;> cases h3
        rcases h4 with h4 | ⟨q1, q2, q3⟩
        · exact Or.inl ⟨h4.1, iff_of_false id (fun k => hz (h4.2.2 k))⟩
        · exact Or.inr ⟨q1, q3, id⟩
    | probeRtt y e =>
      rw [hm] at hs
      have hd : (b.doEvent F p c).net = (onProbeRtt F p b.net y e c).2 ∧ (b.doEvent F p c).mode = (onProbeRtt F p b.net y e c).1 := by
        unfold Bbr.doEvent; rw [hm]; exact ⟨rfl, rfl⟩
      have h12 : SameBw b.net (onProbeRtt F p b.net y e c).2 ∧ ((∃ x, (onProbeRtt F p b.net y e c).1 = .probeRtt y x) ∨
          ∃ z, (onProbeRtt F p b.net y e c).1 = .probeBw z ∧ (z.phase = .cruise ∨ z.phase = .refill)) := by
        unfold onProbeRtt
        split
        · exact ⟨⟨rfl, rfl⟩, Or.inl ⟨_, rfl⟩⟩
        · split
          · have := back_probe p b.net y c.now hs
            exact ⟨this.1, Or.inr ⟨_, rfl, this.2.1⟩⟩
          · exact ⟨⟨rfl, rfl⟩, Or.inl ⟨_, rfl⟩⟩
      obtain ⟨h1, h2⟩ := h12
      rw [← hd.1] at h1
      rw [← hd.2] at h2
      generalize b.doEvent F p c = d at h1 h2 ih
      rcases h2 with ⟨x, h2⟩ | ⟨z, h2, h3⟩
      · rw [h2, if_pos (by rfl)]
        exact ⟨.turn (Or.inl ⟨h1, by rw [h2]; exact Iff.rfl⟩) (kind_not (n := 3) rfl (by decide)), by rw [h2]; exact hs, fun _ => by rw [h2]; exact (by decide : 2 ≤ 3)⟩
      · rw [h2, if_neg (fun h => by cases h)]
        have hz : z.phase ≠ .down ∧ z.phase ≠ .up := by rcases h3 with h3 | h3 <;> rw [h3] <;> decide
        obtain ⟨g1, g2, g3⟩ := ih c.now (by rw [h2]; exact Fresh.of hz.1) (Nat.le_refl _)
        rw [h2] at g1 g3
        refine ⟨.turn ?_ (kind_not (n := 3) rfl (by decide)), g2, fun _ => g3 (Nat.le_refl 2)⟩
        rcases g1.stay (fun he => by
            rcases he with ⟨y', z', e1, -, e2, -⟩ | ⟨e1, -⟩
            · cases e1; exact hz.2 e2
            · exact absurd e1 (Nat.lt_irrefl 2)) with g | g
        · exact Or.inl ⟨h1.trans g.1, iff_of_false (fun hp => hz.1 (g.2.1 hp).1) id⟩
        · exact absurd g.1.1 hz.1

/-- Coming out of quiescence. -/
theorem quiet_filtered (p : Params) (b : Bbr) (now inFlight T : Nat) (hs : Sound T b.mode) :
    SameBw b.net (if inFlight = 0 then b.exitQuiet p now else b).net ∧ Sound T (if inFlight = 0 then b.exitQuiet p now else b).mode ∧
    (pendM (if inFlight = 0 then b.exitQuiet p now else b).mode ↔ pendM b.mode) := by
  split
  · unfold Bbr.exitQuiet
    split
    · exact ⟨⟨rfl, rfl⟩, hs, Iff.rfl⟩
    · unfold Bbr.wake
      have hb : ∀ y, (y.phase = .cruise ∨ y.phase = .refill) → SameBw b.net (intoProbeBw p b.net y now).2 ∧ Sound T (intoProbeBw p b.net y now).1 ∧
          ¬pendM (intoProbeBw p b.net y now).1 := by
        intro y hy
        obtain ⟨k1, k2, -⟩ := back_probe p b.net y now hy
        have k3 : (enterProbeBw p b.net y now).2.phase ≠ .down := by rcases k2 with k | k <;> rw [k] <;> decide
        exact ⟨k1, Fresh.of k3, fun hp => k3 hp.1⟩
      split
      · exact ⟨⟨rfl, rfl⟩, hs, Iff.rfl⟩
      · exact ⟨⟨rfl, rfl⟩, hs, Iff.rfl⟩
      · exact ⟨⟨rfl, rfl⟩, hs, Iff.rfl⟩
      · next y hy => 
        have hy' : b.mode = .probeRtt y none := hy
        rw [hy'] at hs
        have := hb y hs
        exact ⟨this.1, this.2.1, iff_of_false this.2.2 (by rw [hy']; exact id)⟩
      · next y t hy =>
        have hy' : b.mode = .probeRtt y (some t) := hy
        split
        · rw [hy'] at hs
          have := hb y hs
          exact ⟨this.1, this.2.1, iff_of_false this.2.2 (by rw [hy']; exact id)⟩
        · exact ⟨⟨rfl, rfl⟩, hs, Iff.rfl⟩
  · exact ⟨⟨rfl, rfl⟩, hs, Iff.rfl⟩

end Verif.Bbr
