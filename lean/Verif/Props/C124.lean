import Verif.Props.C123

/-!
C124: what makes the congestion window grow.
-/

namespace Verif.Props.C124

open Verif.Rec Verif.Cong

variable {φ : Type}

/-! ### What is to hold -/

/-- Whether the sender said that it has nothing to send, and sent no packet since. -/
def limited (lim : Bool) : Call → Bool
  | .limited v => v
  | .base (.send _ p _ _) => if p.inFlight = true then false else lim
  | _ => lim

/-- Whether a packet was sent after the given time. -/
def sentAfter (since : Option Nat) (a : Acked) : Bool :=
  match since with
  | none => true
  | some t => decide (t < a.timeSent)

/-- The window grows by at most one datagram of size `m` for every packet newly
acknowledged, unless it was sent before the last reduction (time `since`), and not at all
when there is nothing to send. -/
def Grow (m : Nat) : Option Nat → Bool → List Event → Prop
  | _, _, [] => True
  | since, lim, ev :: l =>
    if resizes ev.call = true then Grow m since lim l
    else if newer since ev.out = true then Grow m (callTime ev.call) (limited lim ev.call) l
    else
      ev.after ≤ ev.before + m * (if lim = true then 0 else (ev.out.acked.filter (sentAfter since)).length) ∧
      Grow m since (limited lim ev.call) l

/-- As above, but counting from the largest window so far. -/
def GrowPeak (m : Nat) : Nat → Bool → List Event → Prop
  | _, _, [] => True
  | peak, lim, ev :: l =>
    (resizes ev.call = false →
      ev.after ≤ Nat.max peak ev.before + m * (if lim = true then 0 else ev.out.acked.length)) ∧
    GrowPeak m (Nat.max peak (Nat.max ev.before ev.after)) (limited lim ev.call) l

/-! ### The flag -/

theorem renoAck_lim (now : Nat) (r : Rtt) (s : St φ) (p : Acked) : (renoAck now r s p).appLimited = s.appLimited := by
  unfold renoAck
  split
  · rfl
  · split
    · rfl
    · split
      · exact (hyAck_frame _ p r.latest now).2.2.2.2.2.2.1
      · split <;> rfl

theorem cubicRollback_lim (f : Curve φ) (s : St φ) : (cubicRollback f s).2.appLimited = s.appLimited := by
  unfold cubicRollback
  split
  · rfl
  · split <;> rfl

theorem cubicAck_lim (f : Curve φ) (flight now : Nat) (r : Rtt) (s : St φ) (p : Acked) :
    (cubicAck f flight now r s p).appLimited = s.appLimited := by
  unfold cubicAck
  split
  · rfl
  · split
    · rfl
    · split
      · unfold cubicUndo
        split
        · exact cubicRollback_lim f s
        · rfl
      · split
        · unfold cubicSlow
          rw [(hyAck_frame _ p r.latest now).2.2.2.2.2.2.1]
          split <;> rfl
        · unfold cubicAvoid
          dsimp only
          rw [(cubicGrow_frame f _ _ (cubicStart f now s).2 p.size).2.2.2.2.2.2.2.2.1, (cubicStart_frame f now s).2.2.2.2.2.2.2.1]

theorem fold_lim {α : Type} (g : St φ → α → St φ) (h : ∀ s x, (g s x).appLimited = s.appLimited) :
    ∀ (l : List α) (s : St φ), (l.foldl g s).appLimited = s.appLimited := by
  intro l
  induction l with
  | nil => intro s; rfl
  | cons x l ih => intro s; exact (ih _).trans (h s x)

theorem onAcked_lim (f : Curve φ) (a : Algo) (s : St φ) (flight : Nat) (l : List Acked) (r : Rtt) (now : Nat) :
    (onAcked f a s flight l r now).appLimited = s.appLimited := by
  cases a with
  | reno => exact fold_lim _ (renoAck_lim now r) l s
  | cubic => exact fold_lim _ (cubicAck_lim f flight now r) l { s with lastAck := some now }

theorem rollback_lim (f : Curve φ) (a : Algo) (s : St φ) : ((ctl f a).rollback s).appLimited = s.appLimited := by
  cases a with
  | reno => rfl
  | cubic => exact cubicRollback_lim f s

theorem lossWith_lim (f : Curve φ) (a : Algo) (s : St φ) (flight bytes now : Nat) (o : Option Sent) :
    (lossWith (ctl f a) s flight bytes now o).appLimited = s.appLimited := by
  rcases lossWith_cases f a s flight bytes now o with ⟨he, _⟩ | ⟨hc, _⟩
  · rw [he]
  · exact hc.appLimited

theorem move_lim (f : Curve φ) (a : Algo) {s : State (St φ)} {o : Op} {out : Out} {c : St φ} (hm : Move (ctl f a) s o out c)
    (h : limited s.cc.appLimited (.base o) = true) : c.appLimited = true := by
  have hb : s.cc.appLimited = true → c.appLimited = true ∨ ∃ e p st now, o = .send e p st now := by
    intro h
    cases hm with
    | same _ => exact Or.inl h
    | sent => exact Or.inr ⟨_, _, _, _, rfl⟩
    | rolled => exact Or.inl ((rollback_lim f a _).trans h)
    | lost now _ _ bytes n _ => exact Or.inl ((lossWith_lim f a _ _ _ _ _).trans h)
    | acked sp _ flight bytes n r _ _ =>
      refine Or.inl ((onAcked_lim f a _ _ _ _ _).trans ((lossWith_lim f a _ _ _ _ _).trans ?_))
      split
      · exact (rollback_lim f a _).trans h
      · exact h
  cases o with
  | send e p st now =>
    unfold limited at h
    dsimp only at h
    split at h
    · cases h
    · rename_i hp
      cases hm with
      | same _ => exact h
      | sent =>
        show (onSent a s.cc _ _ _ _ _ : St φ).appLimited = true
        unfold onSent
        rw [if_neg hp]
        exact h
      | lost now _ _ bytes n _ => exact (lossWith_lim f a _ _ _ _ _).trans h
  | ack e rs d st now sk =>
    rcases hb h with h | ⟨_, _, _, _, h⟩
    · exact h
    · cases h
  | timeout st now =>
    rcases hb h with h | ⟨_, _, _, _, h⟩
    · exact h
    · cases h
  | discard e st now =>
    rcases hb h with h | ⟨_, _, _, _, h⟩
    · exact h
    · cases h
  | pathChange st now =>
    rcases hb h with h | ⟨_, _, _, _, h⟩
    · exact h
    · cases h
  | _ =>
    rcases hb h with h | ⟨_, _, _, _, h⟩
    · exact h
    · cases h

theorem step_lim (f : Curve φ) (a : Algo) (scale : Bool → Nat → Nat) (q hf : Nat → Nat) (s : Sys φ) (c : Call)
    (h : limited s.core.cc.appLimited c = true) : (s.step (env f a scale q hf) c).1.core.cc.appLimited = true := by
  cases c with
  | base o => exact move_lim f a (step_move (env f a scale q hf) s.core o) h
  | limited v => exact h
  | pmtu n =>
    show (s.setSize n).core.cc.appLimited = true
    unfold Sys.setSize
    dsimp only
    split <;> exact h
  | peerMax n =>
    show (s.setSize _).core.cc.appLimited = true
    unfold Sys.setSize
    dsimp only
    split <;> exact h

theorem limited_mono {x y : Bool} (h : x = true → y = true) (c : Call) : limited x c = true → limited y c = true := by
  unfold limited
  split
  · exact id
  · split
    · exact id
    · exact h
  · exact h

/-! ### Reno -/

theorem renoAck_le (now : Nat) (r : Rtt) (s : St φ) (p : Acked) :
    (renoAck now r s p).cwnd ≤ s.cwnd + s.mds * (if s.appLimited = true then 0 else if s.inRecovery p.timeSent = true then 0 else 1) := by
  unfold renoAck
  split
  · exact Nat.le_add_right _ _
  · split
    · exact Nat.le_add_right _ _
    · rw [Nat.mul_one]
      split
      · rw [(hyAck_frame _ p r.latest now).1]
        exact Nat.add_le_add_left (slowInc_le s) _
      · split
        · exact Nat.le_refl _
        · exact Nat.le_add_right _ _

theorem sentAfter_eq {s : St φ} {since : Option Nat} (h : s.recStart = since) (a : Acked) :
    sentAfter since a = !s.inRecovery a.timeSent := by
  unfold sentAfter St.inRecovery
  rw [h]
  cases since with
  | none => rfl
  | some t =>
    simp only
    by_cases hq : a.timeSent ≤ t
    · simp [hq, Nat.not_lt.2 hq]
    · simp [hq, Nat.lt_of_not_le hq]

theorem renoFold_le (now : Nat) (r : Rtt) (since : Option Nat) : ∀ (l : List Acked) (s : St φ), s.recStart = since →
    (l.foldl (renoAck now r) s).cwnd ≤ s.cwnd + s.mds * (if s.appLimited = true then 0 else (l.filter (sentAfter since)).length) := by
  intro l
  induction l with
  | nil => intro s _; exact Nat.le_add_right _ _
  | cons p l ih =>
    intro s h
    have h1 := ih (renoAck now r s p) ((C123.renoAck_rec now r s p).trans h)
    have h2 := renoAck_le now r s p
    rw [renoAck_lim, (renoAck_grows now r s p).mds] at h1
    rw [List.foldl_cons, List.filter_cons, sentAfter_eq h]
    cases hl : s.appLimited with
    | true =>
      rw [hl] at h1 h2
      simp only [if_true, Nat.mul_zero, Nat.add_zero] at h1 h2 ⊢
      exact Nat.le_trans h1 h2
    | false =>
      rw [hl] at h1 h2
      cases hr : s.inRecovery p.timeSent with
      | true =>
        rw [hr] at h2
        simp only [if_true, Nat.mul_zero, Nat.add_zero, Bool.not_true, Bool.false_eq_true, if_false] at h1 h2 ⊢
        omega
      | false =>
        rw [hr] at h2
        simp only [Bool.not_false, if_true, Bool.false_eq_true, if_false, List.length_cons, Nat.mul_add, Nat.mul_one] at h1 h2 ⊢
        omega

theorem reno_move (f : Curve φ) {s : State (St φ)} {o : Op} {out : Out} {c : St φ} (hm : Move (ctl f .reno) s o out c)
    {since : Option Nat} (hr : s.cc.recStart = since) (hn : newer since out = false) :
    c.cwnd ≤ s.cc.cwnd + s.cc.mds * (if s.cc.appLimited = true then 0 else (out.acked.filter (sentAfter since)).length) := by
  cases hm with
  | same h => exact Nat.le_add_right _ _
  | @sent e p st now =>
    refine Nat.le_trans (Nat.le_of_eq ?_) (Nat.le_add_right _ _)
    exact (onSent_frame .reno s.cc s.flight.bytes (p.sent now).size now p.pn p.inFlight).1
  | rolled => exact Nat.le_add_right _ _
  | lost now hnow _ bytes n _ =>
    rcases lossWith_cases f .reno s.cc s.flight.bytes bytes now (newest out.lost) with ⟨he, hq⟩ | ⟨hcut, p, hp, hq⟩
    · rw [he]; exact Nat.le_add_right _ _
    · rw [C123.inRec_newer hr hp, hq] at hn
      cases hn
  | @acked e rs d st now sk out sp _ flight bytes n r ha _ =>
    have hsp : (if sp = true then (ctl f Algo.reno).rollback s.cc else s.cc) = s.cc := by split <;> rfl
    rw [hsp]
    rcases lossWith_cases f .reno s.cc s.flight.bytes bytes now (newest out.lost) with ⟨he, hq⟩ | ⟨hcut, p, hp, hq⟩
    · rw [he]
      exact renoFold_le now r since out.acked ((ctl f Algo.reno).addLost s.cc n) hr
    · rw [C123.inRec_newer hr hp, hq] at hn
      cases hn

theorem reno_trace (f : Curve φ) (scale : Bool → Nat → Nat) (q hf : Nat → Nat) (m : Nat) :
    ∀ (calls : List Call) (s : Sys φ) (T : Nat) (since : Option Nat) (lim : Bool),
    Ordered T calls → SentBy T s.core → s.core.cc.mds = m → s.core.cc.recStart = since → (lim = true → s.core.cc.appLimited = true) →
    Grow m since lim (trace (env f .reno scale q hf) s calls) := by
  intro calls
  induction calls with
  | nil => intros; trivial
  | cons c calls ih =>
    intro s T since lim ho hT hm hr hl
    have hsent := C123.step_sent (env f .reno scale q hf) hT (ordered_time ho)
    have hmds := (C123.step_mds f .reno scale q hf s c).trans hm
    have key := fun since' hr' => ih (s.step (env f .reno scale q hf) c).1 _ since' (limited lim c) ho.2 hsent hmds hr'
      (fun h => step_lim f .reno scale q hf s c (limited_mono hl c h))
    unfold trace Grow
    cases c with
    | base o =>
      rw [if_neg (by simp [resizes])]
      rcases C123.reno_move f (step_move (env f .reno scale q hf) s.core o) hT (ordered_time ho) hr with ⟨h1, _, h3, _⟩ | ⟨h1, _, h3⟩
      · rw [if_pos (by exact h1)]
        exact key _ h3
      · rw [if_neg (by show ¬ newer since (Rec.step (env f .reno scale q hf) s.core o).2 = true; rw [h1]; simp)]
        refine ⟨?_, key _ h3⟩
        refine Nat.le_trans (reno_move f (step_move (env f .reno scale q hf) s.core o) hr h1) ?_
        rw [hm]
        refine Nat.add_le_add_left (Nat.mul_le_mul_left _ ?_) _
        cases lim with
        | true => rw [hl rfl]; exact Nat.le_refl _
        | false => split <;> first | exact Nat.zero_le _ | exact Nat.le_refl _
    | limited v =>
      rw [if_neg (by simp [resizes]), if_neg (by simp [newer, newest, Sys.step, Out.none])]
      exact ⟨Nat.le_add_right _ _, key _ hr⟩
    | pmtu n =>
      rw [if_pos (by simp [resizes])]
      exact key _ ((C123.setSize_core s n .initial).2.trans hr)
    | peerMax n =>
      rw [if_pos (by simp [resizes])]
      exact key _ ((C123.setSize_core s _ .initial).2.trans hr)

/-- Reno: the window grows by at most one datagram for every packet newly acknowledged
that was sent after the last reduction, and not at all while there is nothing to send. -/
theorem reno (f : Curve φ) (scale : Bool → Nat → Nat) (q hf : Nat → Nat) (size pkts : Nat) (hy fix : Bool) (t0 r d : Nat) (calls : List Call)
    (ho : Ordered 0 calls) : Grow size none false (trace (env f .reno scale q hf) (Sys.new f size pkts hy fix t0 r d) calls) :=
  reno_trace f scale q hf size calls _ 0 none false ho (fun e p hp => by cases e <;> cases hp) rfl rfl (fun h => by cases h)

/-! ### Both -/

theorem cubicAck_le (f : Curve φ) (flight now : Nat) (r : Rtt) (s : St φ) (p : Acked) :
    (cubicAck f flight now r s p).cwnd ≤ Nat.max s.prior.cwnd s.cwnd + s.mds * (if s.appLimited = true then 0 else 1) := by
  have hmax := Nat.le_max_right s.prior.cwnd s.cwnd
  unfold cubicAck
  split
  · exact Nat.le_trans hmax (Nat.le_add_right _ _)
  · split
    · exact Nat.le_trans hmax (Nat.le_add_right _ _)
    · rw [Nat.mul_one]
      split
      · refine Nat.le_trans ?_ (Nat.le_add_right _ _)
        unfold cubicUndo
        split
        · unfold cubicRollback
          split
          · exact hmax
          · split
            · exact hmax
            · exact Nat.le_max_left _ _
        · exact hmax
      · split
        · unfold cubicSlow
          rw [(hyAck_frame _ p r.latest now).1]
          split
          · exact Nat.add_le_add hmax (slowInc_le s)
          · exact Nat.le_trans hmax (Nat.le_add_right _ _)
        · unfold cubicAvoid
          dsimp only
          have h1 := (cubicGrow_frame f (now - (cubicStart f now s).1) r.minRtt.estimate (cubicStart f now s).2 p.size).2.1
          rw [(cubicStart_frame f now s).1, (cubicStart_frame f now s).2.1] at h1
          exact Nat.le_trans h1 (Nat.add_le_add_right hmax _)

theorem cubicFold_le (f : Curve φ) (flight now : Nat) (r : Rtt) : ∀ (l : List Acked) (s : St φ),
    (l.foldl (cubicAck f flight now r) s).cwnd ≤ Nat.max s.prior.cwnd s.cwnd + s.mds * (if s.appLimited = true then 0 else l.length) := by
  intro l
  induction l with
  | nil => intro s; exact Nat.le_trans (Nat.le_max_right _ _) (Nat.le_add_right _ _)
  | cons p l ih =>
    intro s
    have h1 := ih (cubicAck f flight now r s p)
    have h2 := cubicAck_le f flight now r s p
    rw [cubicAck_lim, (cubicAck_grows f flight now r s p).mds, (cubicAck_grows f flight now r s p).prior] at h1
    rw [List.foldl_cons]
    have h3 := Nat.le_max_left s.prior.cwnd s.cwnd
    cases hl : s.appLimited with
    | true =>
      rw [hl] at h1 h2
      simp only [if_true, Nat.mul_zero, Nat.add_zero] at h1 h2 ⊢
      exact Nat.le_trans h1 (Nat.max_le.2 ⟨h3, h2⟩)
    | false =>
      rw [hl] at h1 h2
      simp only [Bool.false_eq_true, if_false, List.length_cons, Nat.mul_add, Nat.mul_one] at h1 h2 ⊢
      refine Nat.le_trans h1 ?_
      have h4 := Nat.max_le.2 ⟨Nat.le_trans h3 (Nat.le_add_right _ s.mds), h2⟩
      have h5 : Nat.max s.prior.cwnd (cubicAck f flight now r s p).cwnd ≤ Nat.max s.prior.cwnd s.cwnd + s.mds := h4
      omega

theorem onAcked_le (f : Curve φ) (a : Algo) (s : St φ) (flight : Nat) (l : List Acked) (r : Rtt) (now : Nat) :
    (onAcked f a s flight l r now).cwnd ≤ Nat.max s.prior.cwnd s.cwnd + s.mds * (if s.appLimited = true then 0 else l.length) := by
  cases a with
  | reno =>
    refine Nat.le_trans (renoFold_le now r s.recStart l s rfl) (Nat.add_le_add (Nat.le_max_right _ _) (Nat.mul_le_mul_left _ ?_))
    split
    · exact Nat.le_refl _
    · exact List.length_filter_le _ _
  | cubic => exact cubicFold_le f flight now r l { s with lastAck := some now }

/-- The window before the last reduction was seen. -/
theorem rollback_le (f : Curve φ) (a : Algo) (s : St φ) : ((ctl f a).rollback s).cwnd ≤ Nat.max s.prior.cwnd s.cwnd := by
  cases a with
  | reno => exact Nat.le_max_right _ _
  | cubic =>
    show (cubicRollback f s).2.cwnd ≤ _
    unfold cubicRollback
    split
    · exact Nat.le_max_right _ _
    · split
      · exact Nat.le_max_right _ _
      · exact Nat.le_max_left _ _

/-- A factor that does not raise the window. -/
def Beta (f : Curve φ) : Prop := ∀ x, f.beta x ≤ x

theorem cut_le (f : Curve φ) (hb : Beta f) (a : Algo) (s : St φ) (h : 2 * s.mds ≤ s.cwnd) : cut f a s ≤ s.cwnd := by
  rw [Nat.mul_comm] at h
  cases a
  · exact Nat.max_le.2 ⟨Nat.div_le_self _ _, h⟩
  · exact Nat.max_le.2 ⟨hb _, h⟩

/-- What is known between calls. -/
structure Inv (peak : Nat) (s : St φ) : Prop where
  prior : s.prior.cwnd ≤ peak
  floor : 2 * s.mds ≤ s.cwnd

theorem move_le (f : Curve φ) (hb : Beta f) (a : Algo) {s : State (St φ)} {o : Op} {out : Out} {c : St φ} (hm : Move (ctl f a) s o out c)
    {peak : Nat} (hi : Inv peak s.cc) :
    c.cwnd ≤ Nat.max peak s.cc.cwnd + s.cc.mds * (if s.cc.appLimited = true then 0 else out.acked.length) ∧
    Inv (Nat.max peak s.cc.cwnd) c := by
  have hw := Nat.le_max_right peak s.cc.cwnd
  have hp := Nat.le_max_left peak s.cc.cwnd
  -- A loss.
  have hloss : ∀ (x : St φ) (fl b now : Nat) (ps : Option Sent), x.prior.cwnd ≤ Nat.max peak s.cc.cwnd → x.cwnd ≤ Nat.max peak s.cc.cwnd →
      2 * x.mds ≤ x.cwnd →
      (lossWith (ctl f a) x fl b now ps).cwnd ≤ Nat.max peak s.cc.cwnd ∧ (lossWith (ctl f a) x fl b now ps).prior.cwnd ≤ Nat.max peak s.cc.cwnd ∧
      2 * (lossWith (ctl f a) x fl b now ps).mds ≤ (lossWith (ctl f a) x fl b now ps).cwnd ∧ (lossWith (ctl f a) x fl b now ps).mds = x.mds := by
    intro x fl b now ps h1 h2 h3
    rcases lossWith_cases f a x fl b now ps with ⟨he, _⟩ | ⟨hc, _⟩
    · rw [he]; exact ⟨h2, h1, h3, rfl⟩
    · refine ⟨?_, ?_, ?_, hc.mds⟩
      · rw [hc.cwnd]; exact Nat.le_trans (cut_le f hb a x h3) h2
      · cases a with
        | reno => rw [(hc.reno rfl).1]; exact h1
        | cubic => rw [(hc.prior rfl).1]; exact h2
      · rw [hc.cwnd, hc.mds]; exact cut_ge f a x
  cases hm with
  | same _ => exact ⟨Nat.le_trans hw (Nat.le_add_right _ _), Nat.le_trans hi.prior hp, hi.floor⟩
  | @sent e p st now =>
    have hg := onSent_grows a s.cc s.flight.bytes (p.sent now).size now p.pn p.inFlight
    have hf := (onSent_frame a s.cc s.flight.bytes (p.sent now).size now p.pn p.inFlight).1
    refine ⟨?_, ?_, ?_⟩
    · exact Nat.le_trans (Nat.le_of_eq hf) (Nat.le_trans hw (Nat.le_add_right _ _))
    · show (onSent a s.cc _ _ _ _ _ : St φ).prior.cwnd ≤ _
      rw [hg.prior]; exact Nat.le_trans hi.prior hp
    · show 2 * (onSent a s.cc _ _ _ _ _ : St φ).mds ≤ (onSent a s.cc _ _ _ _ _ : St φ).cwnd
      rw [hg.mds]; exact Nat.le_trans hi.floor hg.cwnd
  | rolled =>
    have hg := rollback_grows f a s.cc
    refine ⟨Nat.le_trans (rollback_le f a _) (Nat.le_trans (Nat.max_le.2 ⟨Nat.le_trans hi.prior hp, hw⟩) (Nat.le_add_right _ _)), ?_, ?_⟩
    · rw [hg.prior]; exact Nat.le_trans hi.prior hp
    · rw [hg.mds]; exact Nat.le_trans hi.floor hg.cwnd
  | lost now _ _ bytes n _ =>
    obtain ⟨h1, h2, h3, _⟩ := hloss s.cc s.flight.bytes bytes now (newest out.lost) (Nat.le_trans hi.prior hp) hw hi.floor
    exact ⟨Nat.le_trans h1 (Nat.le_add_right _ _), h2, h3⟩
  | @acked e rs d st now sk out sp _ flight bytes n r ha _ =>
    have hx : (if sp = true then (ctl f a).rollback s.cc else s.cc).prior.cwnd ≤ Nat.max peak s.cc.cwnd ∧
        (if sp = true then (ctl f a).rollback s.cc else s.cc).cwnd ≤ Nat.max peak s.cc.cwnd ∧
        2 * (if sp = true then (ctl f a).rollback s.cc else s.cc).mds ≤ (if sp = true then (ctl f a).rollback s.cc else s.cc).cwnd ∧
        (if sp = true then (ctl f a).rollback s.cc else s.cc).mds = s.cc.mds ∧
        (if sp = true then (ctl f a).rollback s.cc else s.cc).appLimited = s.cc.appLimited := by
      split
      · have hg := rollback_grows f a s.cc
        refine ⟨?_, Nat.le_trans (rollback_le f a _) (Nat.max_le.2 ⟨Nat.le_trans hi.prior hp, hw⟩), ?_, hg.mds, rollback_lim f a _⟩
        · rw [hg.prior]; exact Nat.le_trans hi.prior hp
        · rw [hg.mds]; exact Nat.le_trans hi.floor hg.cwnd
      · exact ⟨Nat.le_trans hi.prior hp, hw, hi.floor, rfl, rfl⟩
    generalize (if sp = true then (ctl f a).rollback s.cc else s.cc) = x at hx ⊢
    obtain ⟨x1, x2, x3, x4, x5⟩ := hx
    have hl := lossWith_lim f a x s.flight.bytes bytes now (newest out.lost)
    obtain ⟨y1, y2, y3, y4⟩ := hloss x s.flight.bytes bytes now (newest out.lost) x1 x2 x3
    generalize lossWith (ctl f a) x s.flight.bytes bytes now (newest out.lost) = y at hl y1 y2 y3 y4 ⊢
    have hg := onAcked_grows f a ((ctl f a).addLost y n) flight out.acked r now
    have hle := onAcked_le f a ((ctl f a).addLost y n) flight out.acked r now
    have e1 : ((ctl f a).addLost y n).mds = s.cc.mds := y4.trans x4
    have e2 : ((ctl f a).addLost y n).appLimited = s.cc.appLimited := hl.trans x5
    rw [e1, e2] at hle
    refine ⟨Nat.le_trans hle (Nat.add_le_add_right (Nat.max_le.2 ⟨y2, y1⟩) _), ?_, ?_⟩
    · show (onAcked f a ((ctl f a).addLost y n) flight out.acked r now).prior.cwnd ≤ _
      rw [hg.prior]; exact y2
    · show 2 * (onAcked f a ((ctl f a).addLost y n) flight out.acked r now).mds ≤ (onAcked f a ((ctl f a).addLost y n) flight out.acked r now).cwnd
      rw [hg.mds]; exact Nat.le_trans y3 hg.cwnd

theorem peak_trace (f : Curve φ) (hb : Beta f) (a : Algo) (scale : Bool → Nat → Nat) (q hf : Nat → Nat) (m : Nat) :
    ∀ (calls : List Call) (s : Sys φ) (peak : Nat) (lim : Bool), (∀ c ∈ calls, resizes c = false) →
    s.core.cc.mds = m → Inv peak s.core.cc → (lim = true → s.core.cc.appLimited = true) →
    GrowPeak m peak lim (trace (env f a scale q hf) s calls) := by
  intro calls
  induction calls with
  | nil => intros; trivial
  | cons c calls ih =>
    intro s peak lim hs hm hi hl
    have hmds := (C123.step_mds f a scale q hf s c).trans hm
    have key := fun hi' => ih (s.step (env f a scale q hf) c).1 (Nat.max peak (Nat.max s.core.cc.cwnd (s.step (env f a scale q hf) c).1.core.cc.cwnd))
      (limited lim c) (fun x hx => hs x (List.mem_cons_of_mem _ hx)) hmds hi'
      (fun h => step_lim f a scale q hf s c (limited_mono hl c h))
    unfold trace GrowPeak
    have hpk : Nat.max peak s.core.cc.cwnd ≤ Nat.max peak (Nat.max s.core.cc.cwnd (s.step (env f a scale q hf) c).1.core.cc.cwnd) :=
      Nat.max_le.2 ⟨Nat.le_max_left _ _, Nat.le_trans (Nat.le_max_left _ _) (Nat.le_max_right _ _)⟩
    cases c with
    | base o =>
      obtain ⟨h1, h2⟩ := move_le f hb a (step_move (env f a scale q hf) s.core o) hi
      refine ⟨fun _ => Nat.le_trans h1 ?_, key ⟨Nat.le_trans h2.prior hpk, h2.floor⟩⟩
      rw [hm]
      refine Nat.add_le_add_left (Nat.mul_le_mul_left _ ?_) _
      cases lim with
      | true => rw [hl rfl]; exact Nat.le_refl _
      | false => split <;> first | exact Nat.zero_le _ | exact Nat.le_refl _
    | limited v =>
      exact ⟨fun _ => Nat.le_trans (Nat.le_max_right _ _) (Nat.le_add_right _ _),
        key ⟨Nat.le_trans hi.prior (Nat.le_trans (Nat.le_max_left _ _) hpk), hi.floor⟩⟩
    | pmtu n => exact absurd (hs _ List.mem_cons_self) (by simp [resizes])
    | peerMax n => exact absurd (hs _ List.mem_cons_self) (by simp [resizes])

/-- Reno and CUBIC: a call leaves the window at most one datagram for every packet newly
acknowledged above the largest window so far, and not at all above it while there is
nothing to send. -/
theorem peak_partial (f : Curve φ) (hb : Beta f) (a : Algo) (scale : Bool → Nat → Nat) (q hf : Nat → Nat) (size pkts : Nat) (hp : 2 ≤ pkts)
    (hy fix : Bool) (t0 r d : Nat) (calls : List Call) (hr : ∀ c ∈ calls, resizes c = false) :
    GrowPeak size 0 false (trace (env f a scale q hf) (Sys.new f size pkts hy fix t0 r d) calls) :=
  peak_trace f hb a scale q hf size calls _ 0 false hr rfl
    ⟨Nat.le_refl _, by show 2 * size ≤ size * pkts; rw [Nat.mul_comm]; exact Nat.mul_le_mul_left _ hp⟩ (fun h => by cases h)

/-! ### Concrete cases -/

open Verif.Props.C122 (flat with_ done pkt tx ack timer start rounds)

instance (m : Nat) : (since : Option Nat) → (lim : Bool) → (l : List Event) → Decidable (Grow m since lim l)
  | _, _, [] => .isTrue trivial
  | since, lim, ev :: l =>
    have := fun x y => instDecidableGrow m x y l
    inferInstanceAs (Decidable (if resizes ev.call = true then _ else if newer since ev.out = true then _ else _))

-- Slow start: ten packets, all acknowledged.
def ten (n ms : Nat) : List Call := (List.range 10).map (fun i => tx (n + i) 1200 ms)

example : C123.windows (trace (with_ .reno) (start 10) (ten 0 0 ++ [ack [(0, 4)] 100, ack [(0, 10)] 101])) = [12000, 16800, 24000] := by
  decide +kernel
example : C123.windows (trace (with_ .cubic) (start 10) (ten 0 0 ++ [ack [(0, 4)] 100, ack [(0, 10)] 101])) = [12000, 16800, 24000] := by
  decide +kernel
-- Nothing to send: no growth.
example : C123.windows (trace (with_ .reno) (start 10) (ten 0 0 ++ [.limited true, ack [(0, 4)] 100, ack [(0, 10)] 101])) = [12000] := by
  decide +kernel
example : Beta flat := fun x => by show x * 7 / 10 ≤ x; omega
example : Ordered 0 (ten 0 0 ++ [.limited true, ack [(0, 4)] 100, ack [(0, 10)] 101]) := by decide +kernel

/-- Packet 1 is lost in slow start, packet 21 in congestion avoidance; then the sender fills
the window, and packet 31, sent after the second reduction, is acknowledged. Packet 21 is
never acknowledged. -/
def undo : List Call :=
  ten 0 0 ++ [ack [(0, 1), (2, 10)] 100] ++ ten 10 200 ++ [ack [(10, 20)] 300] ++
  (List.range 10).map (fun i => tx (20 + i) 1200 (400 + i)) ++ [ack [(20, 21), (22, 30)] 510] ++
  (List.range 10).map (fun i => tx (30 + i) 1200 (520 + i)) ++ [ack [(31, 32)] 620]

def lostIn (l : List Event) : List (List Nat) := (l.map fun e => e.out.lost.map Sent.pn).filter (· ≠ [])

example : C123.windows (trace (with_ .cubic) (start 10) undo) = [12000, 8400, 5880, 8400] := by decide +kernel
example : lostIn (trace (with_ .cubic) (start 10) undo) = [[1], [21]] := by decide +kernel
example : ((trace (with_ .cubic) (start 10) undo).getLast?.map fun e => (e.out.acked.map Acked.pn, e.before, e.after, e.out.counts.2.2.2)) =
    some ([31], 5880, 8400, 0) := by decide +kernel

/-- The full claim, that the window grows by at most one datagram for every packet newly
acknowledged, is false for CUBIC: the acknowledgement of one packet undoes the reduction
made for a packet that was lost, and is still missing. -/
theorem claim_false : ¬ ∀ calls : List Call, Ordered 0 calls → Grow 1200 none false (trace (with_ .cubic) (start 10) calls) := by
  intro h
  exact absurd (h undo (by decide +kernel)) (by decide +kernel)

end Verif.Props.C124
