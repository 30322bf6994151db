import Verif.Cong.Moves

/-!
What the operations of Reno and CUBIC do to the window.
-/

namespace Verif.Cong

open Verif.Rec

variable {φ : Type}

/-! ### HyStart++ and the threshold -/

theorem hyAck_frame (s : St φ) (p : Acked) (rtt now : Nat) :
    (s.hyAck p rtt now).cwnd = s.cwnd ∧ (s.hyAck p rtt now).mds = s.mds ∧ (s.hyAck p rtt now).initPkts = s.initPkts ∧
    (s.hyAck p rtt now).recStart = s.recStart ∧ (s.hyAck p rtt now).prior = s.prior ∧ (s.hyAck p rtt now).lostCount = s.lostCount ∧
    (s.hyAck p rtt now).appLimited = s.appLimited ∧ (s.hyAck p rtt now).prr = s.prr ∧ (s.hyAck p rtt now).ackedSl = s.ackedSl := by
  unfold St.hyAck
  dsimp only
  split <;> exact ⟨rfl, rfl, rfl, rfl, rfl, rfl, rfl, rfl, rfl⟩

theorem hyAck_thresh (s : St φ) (p : Acked) (rtt now : Nat) :
    ((s.hyAck p rtt now).ssthresh = s.ssthresh ∧ (s.hyAck p rtt now).exit = s.exit) ∨
    ((s.hyAck p rtt now).ssthresh = s.cwnd ∧ (s.hyAck p rtt now).exit = some (s.exit.getD (s.cwnd, true)) ∧ s.hy.enabled = true) := by
  unfold St.hyAck
  dsimp only
  split
  · rename_i h
    refine Or.inr ⟨rfl, rfl, ?_⟩
    unfold Hystart.onAcked at h
    split at h
    · cases h
    · rename_i he; simpa using he
  · exact Or.inl ⟨rfl, rfl⟩

theorem hyEvent_frame (s : St φ) :
    s.hyEvent.cwnd = s.cwnd ∧ s.hyEvent.mds = s.mds ∧ s.hyEvent.initPkts = s.initPkts ∧
    s.hyEvent.recStart = s.recStart ∧ s.hyEvent.prior = s.prior ∧ s.hyEvent.lostCount = s.lostCount ∧
    s.hyEvent.appLimited = s.appLimited ∧ s.hyEvent.prr = s.prr ∧ s.hyEvent.ackedSl = s.ackedSl ∧
    s.hyEvent.ssthresh = s.ssthresh ∧ s.hyEvent.exit = s.exit := by
  unfold St.hyEvent
  split <;> exact ⟨rfl, rfl, rfl, rfl, rfl, rfl, rfl, rfl, rfl, rfl, rfl⟩

theorem slowInc_le (s : St φ) : s.slowInc ≤ s.mds := by
  unfold St.slowInc
  split
  · exact Nat.div_le_self _ _
  · exact Nat.le_refl _

/-! ### Operations that never shrink the window -/

/-- What acknowledgements, sending and undoing keep. -/
structure Grows (s t : St φ) : Prop where
  cwnd : s.cwnd ≤ t.cwnd
  mds : t.mds = s.mds
  initPkts : t.initPkts = s.initPkts
  lost : t.lostCount = s.lostCount
  prior : t.prior = s.prior

theorem Grows.refl (s : St φ) : Grows s s := ⟨Nat.le_refl _, rfl, rfl, rfl, rfl⟩

theorem Grows.trans {s t u : St φ} (h1 : Grows s t) (h2 : Grows t u) : Grows s u :=
  ⟨Nat.le_trans h1.cwnd h2.cwnd, h2.mds.trans h1.mds, h2.initPkts.trans h1.initPkts, h2.lost.trans h1.lost, h2.prior.trans h1.prior⟩

theorem hyAck_grows (s : St φ) (p : Acked) (rtt now : Nat) : Grows s (s.hyAck p rtt now) := by
  obtain ⟨h1, h2, h3, _, h5, h6, _⟩ := hyAck_frame s p rtt now
  exact ⟨Nat.le_of_eq h1.symm, h2, h3, h6, h5⟩

theorem renoAck_grows (now : Nat) (r : Rtt) (s : St φ) (p : Acked) : Grows s (renoAck now r s p) := by
  unfold renoAck
  split
  · exact .refl s
  · split
    · exact .refl s
    · split
      · refine Grows.trans (t := { s with ackedSl := s.ackedSl + p.size, cwnd := s.cwnd + s.slowInc }) ?_ (hyAck_grows _ p r.latest now)
        exact ⟨Nat.le_add_right _ _, rfl, rfl, rfl, rfl⟩
      · split
        · exact ⟨Nat.le_add_right _ _, rfl, rfl, rfl, rfl⟩
        · exact ⟨Nat.le_refl _, rfl, rfl, rfl, rfl⟩

theorem cubicRollback_grows (f : Curve φ) (s : St φ) : Grows s (cubicRollback f s).2 := by
  unfold cubicRollback
  split
  · exact .refl s
  · split
    · exact .refl s
    · rename_i h
      exact ⟨Nat.le_of_lt (Nat.lt_of_not_le h), rfl, rfl, rfl, rfl⟩

theorem cubicUndo_grows (f : Curve φ) (s : St φ) : Grows s (cubicUndo f s).2 := by
  unfold cubicUndo
  split
  · exact cubicRollback_grows f s
  · exact .refl s

theorem cubicSlow_grows (now : Nat) (r : Rtt) (s : St φ) (p : Acked) : Grows s (cubicSlow now r s p) := by
  unfold cubicSlow
  refine Grows.trans ?_ (hyAck_grows _ p r.latest now)
  split
  · exact ⟨Nat.le_add_right _ _, rfl, rfl, rfl, rfl⟩
  · exact ⟨Nat.le_refl _, rfl, rfl, rfl, rfl⟩

theorem cubicStart_frame (f : Curve φ) (now : Nat) (s : St φ) :
    (cubicStart f now s).2.cwnd = s.cwnd ∧ (cubicStart f now s).2.mds = s.mds ∧ (cubicStart f now s).2.initPkts = s.initPkts ∧
    (cubicStart f now s).2.lostCount = s.lostCount ∧ (cubicStart f now s).2.prior = s.prior ∧
    (cubicStart f now s).2.ssthresh = s.ssthresh ∧ (cubicStart f now s).2.exit = s.exit ∧ (cubicStart f now s).2.appLimited = s.appLimited ∧
    (cubicStart f now s).2.ackedSl = s.ackedSl ∧
    ((cubicStart f now s).2.recStart = s.recStart ∨ (s.recStart = none ∧ (cubicStart f now s).2.recStart = some now)) := by
  unfold cubicStart
  split
  · dsimp only
    split <;> exact ⟨rfl, rfl, rfl, rfl, rfl, rfl, rfl, rfl, rfl, Or.inl rfl⟩
  · split
    · exact ⟨rfl, rfl, rfl, rfl, rfl, rfl, rfl, rfl, rfl, Or.inl rfl⟩
    · rename_i h; exact ⟨rfl, rfl, rfl, rfl, rfl, rfl, rfl, rfl, rfl, Or.inr ⟨h, rfl⟩⟩

theorem cubicGrow_frame (f : Curve φ) (t m : Nat) (s : St φ) (size : Nat) :
    s.cwnd ≤ (cubicGrow f t m s size).cwnd ∧ (cubicGrow f t m s size).cwnd ≤ s.cwnd + s.mds ∧
    (cubicGrow f t m s size).mds = s.mds ∧ (cubicGrow f t m s size).initPkts = s.initPkts ∧
    (cubicGrow f t m s size).lostCount = s.lostCount ∧ (cubicGrow f t m s size).prior = s.prior ∧
    (cubicGrow f t m s size).ssthresh = s.ssthresh ∧ (cubicGrow f t m s size).exit = s.exit ∧
    (cubicGrow f t m s size).appLimited = s.appLimited ∧ (cubicGrow f t m s size).ackedSl = s.ackedSl ∧
    (cubicGrow f t m s size).recStart = s.recStart := by
  unfold cubicGrow
  dsimp only
  split
  · exact ⟨Nat.le_add_right _ _, Nat.le_refl _, rfl, rfl, rfl, rfl, rfl, rfl, rfl, rfl, rfl⟩
  · exact ⟨Nat.le_refl _, Nat.le_add_right _ _, rfl, rfl, rfl, rfl, rfl, rfl, rfl, rfl, rfl⟩

theorem cubicAvoid_grows (f : Curve φ) (now : Nat) (r : Rtt) (s : St φ) (p : Acked) : Grows s (cubicAvoid f now r s p) := by
  unfold cubicAvoid
  dsimp only
  obtain ⟨a1, a2, a3, a4, a5, _⟩ := cubicStart_frame f now s
  obtain ⟨b1, _, b3, b4, b5, b6, _⟩ := cubicGrow_frame f (now - (cubicStart f now s).1) r.minRtt.estimate (cubicStart f now s).2 p.size
  exact ⟨a1 ▸ b1, b3.trans a2, b4.trans a3, b5.trans a4, b6.trans a5⟩

theorem cubicAck_grows (f : Curve φ) (flight now : Nat) (r : Rtt) (s : St φ) (p : Acked) : Grows s (cubicAck f flight now r s p) := by
  unfold cubicAck
  split
  · exact ⟨Nat.le_refl _, rfl, rfl, rfl, rfl⟩
  · split
    · exact .refl s
    · split
      · exact cubicUndo_grows f s
      · split
        · exact cubicSlow_grows now r s p
        · exact cubicAvoid_grows f now r s p

theorem foldl_grows {α : Type} (g : St φ → α → St φ) (h : ∀ s x, Grows s (g s x)) : ∀ (l : List α) (s : St φ), Grows s (l.foldl g s) := by
  intro l
  induction l with
  | nil => intro s; exact .refl s
  | cons x l ih => intro s; exact (h s x).trans (ih _)

theorem onAcked_grows (f : Curve φ) (a : Algo) (s : St φ) (flight : Nat) (l : List Acked) (r : Rtt) (now : Nat) :
    Grows s (onAcked f a s flight l r now) := by
  cases a with
  | reno => exact foldl_grows _ (renoAck_grows now r) l s
  | cubic =>
    refine Grows.trans (t := { s with lastAck := some now }) ?_ (foldl_grows _ (cubicAck_grows f flight now r) l _)
    exact ⟨Nat.le_refl _, rfl, rfl, rfl, rfl⟩

theorem rollback_grows (f : Curve φ) (a : Algo) (s : St φ) : Grows s ((ctl f a).rollback s) := by
  cases a with
  | reno => exact .refl s
  | cubic => exact cubicRollback_grows f s

/-- What sending changes is neither the window nor the threshold. -/
theorem onSent_frame (a : Algo) (s : St φ) (flight sent now pn : Nat) (inFlight : Bool) :
    (onSent a s flight sent now pn inFlight).cwnd = s.cwnd ∧ (onSent a s flight sent now pn inFlight).mds = s.mds ∧
    (onSent a s flight sent now pn inFlight).initPkts = s.initPkts ∧ (onSent a s flight sent now pn inFlight).lostCount = s.lostCount ∧
    (onSent a s flight sent now pn inFlight).prior = s.prior ∧ (onSent a s flight sent now pn inFlight).ssthresh = s.ssthresh ∧
    (onSent a s flight sent now pn inFlight).exit = s.exit ∧ (onSent a s flight sent now pn inFlight).ackedSl = s.ackedSl := by
  unfold onSent
  split
  · have h1 : ∀ (x : St φ), (x.hySent pn).cwnd = x.cwnd ∧ (x.hySent pn).mds = x.mds ∧ (x.hySent pn).initPkts = x.initPkts ∧
        (x.hySent pn).lostCount = x.lostCount ∧ (x.hySent pn).prior = x.prior ∧ (x.hySent pn).ssthresh = x.ssthresh ∧
        (x.hySent pn).exit = x.exit ∧ (x.hySent pn).ackedSl = x.ackedSl := by
      intro x
      unfold St.hySent
      split <;> exact ⟨rfl, rfl, rfl, rfl, rfl, rfl, rfl, rfl⟩
    have h2 : ∀ (x : St φ), (algoSent a x sent flight now).cwnd = x.cwnd ∧ (algoSent a x sent flight now).mds = x.mds ∧
        (algoSent a x sent flight now).initPkts = x.initPkts ∧ (algoSent a x sent flight now).lostCount = x.lostCount ∧
        (algoSent a x sent flight now).prior = x.prior ∧ (algoSent a x sent flight now).ssthresh = x.ssthresh ∧
        (algoSent a x sent flight now).exit = x.exit ∧ (algoSent a x sent flight now).ackedSl = x.ackedSl := by
      intro x
      unfold algoSent
      split
      · exact ⟨rfl, rfl, rfl, rfl, rfl, rfl, rfl, rfl⟩
      · unfold cubicSent
        split <;> exact ⟨rfl, rfl, rfl, rfl, rfl, rfl, rfl, rfl⟩
    obtain ⟨a1, a2, a3, a4, a5, a6, a7, a8⟩ :=
      h1 ((algoSent a { s with appLimited := decide (flight + sent < s.cwnd) } sent flight now).prrSent sent)
    obtain ⟨b1, b2, b3, b4, b5, b6, b7, b8⟩ := h2 { s with appLimited := decide (flight + sent < s.cwnd) }
    exact ⟨a1.trans b1, a2.trans b2, a3.trans b3, a4.trans b4, a5.trans b5, a6.trans b6, a7.trans b7, a8.trans b8⟩
  · exact ⟨rfl, rfl, rfl, rfl, rfl, rfl, rfl, rfl⟩

theorem onSent_grows (a : Algo) (s : St φ) (flight sent now pn : Nat) (inFlight : Bool) : Grows s (onSent a s flight sent now pn inFlight) := by
  obtain ⟨h1, h2, h3, h4, h5, _⟩ := onSent_frame a s flight sent now pn inFlight
  exact ⟨Nat.le_of_eq h1.symm, h2, h3, h4, h5⟩

/-! ### Congestion events -/

theorem inRecovery_iff (s : St φ) (t : Nat) : s.inRecovery t = true ↔ ∃ r, s.recStart = some r ∧ t ≤ r := by
  unfold St.inRecovery
  cases h : s.recStart with
  | none => simp
  | some r => simp

theorem inRecovery_congr {s t : St φ} (h : t.recStart = s.recStart) (x : Nat) : t.inRecovery x = s.inRecovery x := by
  unfold St.inRecovery
  rw [h]

/-- The window after a congestion event. -/
def cut (f : Curve φ) : Algo → St φ → Nat
  | .reno, s => renoCut s
  | .cubic, s => cubicCut f s

theorem cut_ge (f : Curve φ) (a : Algo) (s : St φ) : 2 * s.mds ≤ cut f a s := by
  rw [Nat.mul_comm]
  cases a
  · exact Nat.le_max_right (s.cwnd / 2) (s.mds * 2)
  · exact Nat.le_max_right (f.beta s.cwnd) (s.mds * 2)

/-- What the controller does when a loss is found while it is not in recovery. -/
structure Cut (f : Curve φ) (a : Algo) (now : Nat) (s t : St φ) : Prop where
  cwnd : t.cwnd = cut f a s
  ssthresh : t.ssthresh = cut f a s
  recStart : t.recStart = some now
  exit : t.exit = some (s.exit.getD (cut f a s, s.hy.inCss))
  mds : t.mds = s.mds
  initPkts : t.initPkts = s.initPkts
  lost : t.lostCount = s.lostCount
  appLimited : t.appLimited = s.appLimited
  ackedSl : t.ackedSl = s.ackedSl
  prior : a = .cubic → t.prior.cwnd = s.cwnd ∧ t.prior.ssthresh = s.ssthresh ∧ t.prior.epochStart = s.recStart ∧ t.prior.lost = s.lostCount
  reno : a = .reno → t.prior = s.prior ∧ t.prr = s.prr

theorem lossWith_cut (f : Curve φ) (a : Algo) (s : St φ) (flight bytes now : Nat) (p : Sent) (h : s.inRecovery p.timeSent = false) :
    Cut f a now s (lossWith (ctl f a) s flight bytes now (some p)) := by
  unfold lossWith
  have h' : (ctl f a).inRecovery s p.timeSent = false := h
  dsimp only
  rw [if_neg (by rw [h']; simp)]
  cases a with
  | reno =>
    show Cut f .reno now s (renoEvent s p.timeSent now)
    unfold renoEvent
    rw [if_neg (by rw [h]; simp)]
    obtain ⟨h1, h2, h3, h4, h5, h6, h7, h8, h9, h10, h11⟩ :=
      hyEvent_frame ({ s with recStart := some now, cwnd := renoCut s, ackedCa := renoCut s / 2 }.setThresh (renoCut s) s.hy.inCss)
    exact ⟨h1, h10, h4, h11, h2, h3, h6, h7, h9, (fun h => by cases h), fun _ => ⟨h5, h8⟩⟩
  | cubic =>
    show Cut f .cubic now s (cubicEvent f (cubicCheckpoint s) flight p.timeSent now)
    have h'' : (cubicCheckpoint s).inRecovery p.timeSent = false := h
    unfold cubicEvent
    rw [if_neg (by rw [h'']; simp)]
    obtain ⟨h1, h2, h3, h4, h5, h6, h7, h8, h9, h10, h11⟩ :=
      hyEvent_frame ({ cubicCheckpoint s with
        recStart := some now, cwnd := cubicCut f (cubicCheckpoint s),
        curve := f.event (cubicCheckpoint s).curve (cubicCheckpoint s).cwnd (cubicCut f (cubicCheckpoint s)) (cubicCheckpoint s).mds,
        cwndInc := f.beta (cubicCheckpoint s).cwndInc,
        prr := Prr.event flight }.setThresh (cubicCut f (cubicCheckpoint s)) (cubicCheckpoint s).hy.inCss)
    exact ⟨h1, h10, h4, h11, h2, h3, h6, h7, h9, (fun _ => by rw [h5]; exact ⟨rfl, rfl, rfl, rfl⟩), fun h => by cases h⟩

theorem lossWith_skip (f : Curve φ) (a : Algo) (s : St φ) (flight bytes now : Nat) (p : Sent) (h : s.inRecovery p.timeSent = true) :
    lossWith (ctl f a) s flight bytes now (some p) = s := by
  unfold lossWith
  have h' : (ctl f a).inRecovery s p.timeSent = true := h
  dsimp only
  rw [if_pos h']
  cases a with
  | reno =>
    show renoEvent s p.timeSent now = s
    unfold renoEvent
    rw [if_pos h]
  | cubic =>
    show cubicEvent f s flight p.timeSent now = s
    unfold cubicEvent
    rw [if_pos h]

/-- A loss either does nothing or starts recovery. -/
theorem lossWith_cases (f : Curve φ) (a : Algo) (s : St φ) (flight bytes now : Nat) (o : Option Sent) :
    (lossWith (ctl f a) s flight bytes now o = s ∧ ∀ p, o = some p → s.inRecovery p.timeSent = true) ∨
    (Cut f a now s (lossWith (ctl f a) s flight bytes now o) ∧ ∃ p, o = some p ∧ s.inRecovery p.timeSent = false) := by
  cases o with
  | none => exact Or.inl ⟨rfl, fun p h => by cases h⟩
  | some p =>
    cases h : s.inRecovery p.timeSent with
    | true => exact Or.inl ⟨lossWith_skip f a s flight bytes now p h, fun q hq => by cases hq; exact h⟩
    | false => exact Or.inr ⟨lossWith_cut f a s flight bytes now p h, p, rfl, h⟩

/-- What is kept by growing, cutting and counting losses is kept by every call. -/
theorem move_keeps (f : Curve φ) (a : Algo) (P : St φ → Prop) (hg : ∀ x y, P x → Grows x y → P y)
    (hc : ∀ x y now, P x → Cut f a now x y → P y) (hl : ∀ x n, P x → P { x with lostCount := x.lostCount + n })
    {s : State (St φ)} {o : Op} {out : Out} {c : St φ} (h : P s.cc) (hm : Move (ctl f a) s o out c) : P c := by
  have hw : ∀ x flight bytes now o, P x → P (lossWith (ctl f a) x flight bytes now o) := by
    intro x flight bytes now o hx
    rcases lossWith_cases f a x flight bytes now o with ⟨he, _⟩ | ⟨hcut, _⟩
    · rw [he]; exact hx
    · exact hc _ _ _ hx hcut
  cases hm with
  | same _ => exact h
  | sent => exact hg _ _ h (onSent_grows a _ _ _ _ _ _)
  | rolled => exact hg _ _ h (rollback_grows f a _)
  | lost now _ _ bytes n _ => exact hl _ _ (hw _ _ _ _ _ h)
  | acked sp _ flight bytes n r _ _ =>
    refine hg _ _ (hl _ _ (hw _ _ _ _ _ ?_)) (onAcked_grows f a _ flight _ r _)
    split
    · exact hg _ _ h (rollback_grows f a _)
    · exact h

end Verif.Cong
