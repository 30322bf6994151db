import Verif.Props.C125

/-!
C126: in slow start the window grows by no more than the bytes acknowledged; slow start is
left once, and the recorded exit does not change.
-/

namespace Verif.Props.C126

open Verif.Rec Verif.Cong

variable {φ : Type}

/-! ### Slow start is left once -/

/-- What was recorded when slow start was left stays. -/
def Stays (s t : St φ) : Prop := ∀ x, s.exit = some x → t.exit = some x

theorem Stays.trans {s t u : St φ} (h1 : Stays s t) (h2 : Stays t u) : Stays s u := fun x h => h2 x (h1 x h)

theorem stays_of_eq {s t : St φ} (h : t.exit = s.exit) : Stays s t := fun _ hx => h.trans hx

theorem hyAck_stays (s : St φ) (p : Acked) (rtt now : Nat) : Stays s (s.hyAck p rtt now) := by
  intro x hx
  rcases hyAck_thresh s p rtt now with ⟨_, h⟩ | ⟨_, h, _⟩
  · exact h.trans hx
  · rw [h, hx]; rfl

theorem renoAck_stays (now : Nat) (r : Rtt) (s : St φ) (p : Acked) : Stays s (renoAck now r s p) := by
  unfold renoAck
  split
  · exact stays_of_eq rfl
  · split
    · exact stays_of_eq rfl
    · split
      · exact Stays.trans (t := { s with ackedSl := s.ackedSl + p.size, cwnd := s.cwnd + s.slowInc }) (stays_of_eq rfl) (hyAck_stays _ _ _ _)
      · split <;> exact stays_of_eq rfl

theorem rollback_stays (f : Curve φ) (s : St φ) : Stays s (cubicRollback f s).2 := by
  unfold cubicRollback
  split
  · exact stays_of_eq rfl
  · split
    · exact stays_of_eq rfl
    · intro x hx
      show some (s.exit.getD _) = some x
      rw [hx]; rfl

theorem cubicAvoid_exit (f : Curve φ) (now : Nat) (r : Rtt) (s : St φ) (p : Acked) :
    (cubicAvoid f now r s p).exit = s.exit ∧ (cubicAvoid f now r s p).ssthresh = s.ssthresh := by
  unfold cubicAvoid
  dsimp only
  have h1 := cubicGrow_frame f (now - (cubicStart f now s).1) r.minRtt.estimate (cubicStart f now s).2 p.size
  have h2 := cubicStart_frame f now s
  exact ⟨h1.2.2.2.2.2.2.2.1.trans h2.2.2.2.2.2.2.1, h1.2.2.2.2.2.2.1.trans h2.2.2.2.2.2.1⟩

theorem cubicAck_stays (f : Curve φ) (flight now : Nat) (r : Rtt) (s : St φ) (p : Acked) : Stays s (cubicAck f flight now r s p) := by
  unfold cubicAck
  split
  · exact stays_of_eq rfl
  · split
    · exact stays_of_eq rfl
    · split
      · unfold cubicUndo
        split
        · exact rollback_stays f s
        · exact stays_of_eq rfl
      · split
        · unfold cubicSlow
          refine Stays.trans ?_ (hyAck_stays _ _ _ _)
          split <;> exact stays_of_eq rfl
        · exact stays_of_eq (cubicAvoid_exit f now r s p).1

theorem fold_stays {α : Type} (g : St φ → α → St φ) (h : ∀ s x, Stays s (g s x)) : ∀ (l : List α) (s : St φ), Stays s (l.foldl g s) := by
  intro l
  induction l with
  | nil => intro s; exact stays_of_eq rfl
  | cons x l ih => intro s; exact (h s x).trans (ih _)

theorem onAcked_stays (f : Curve φ) (a : Algo) (s : St φ) (flight : Nat) (l : List Acked) (r : Rtt) (now : Nat) :
    Stays s (onAcked f a s flight l r now) := by
  cases a with
  | reno => exact fold_stays _ (renoAck_stays now r) l s
  | cubic => exact Stays.trans (t := { s with lastAck := some now }) (stays_of_eq rfl) (fold_stays _ (cubicAck_stays f flight now r) l _)

theorem ctlRollback_stays (f : Curve φ) (a : Algo) (s : St φ) : Stays s ((ctl f a).rollback s) := by
  cases a with
  | reno => exact stays_of_eq rfl
  | cubic => exact rollback_stays f s

theorem lossWith_stays (f : Curve φ) (a : Algo) (s : St φ) (flight bytes now : Nat) (o : Option Sent) :
    Stays s (lossWith (ctl f a) s flight bytes now o) := by
  rcases lossWith_cases f a s flight bytes now o with ⟨he, _⟩ | ⟨hc, _⟩
  · rw [he]; exact stays_of_eq rfl
  · intro x hx
    rw [hc.exit, hx]; rfl

theorem move_stays (f : Curve φ) (a : Algo) {s : State (St φ)} {o : Op} {out : Out} {c : St φ} (hm : Move (ctl f a) s o out c) :
    Stays s.cc c := by
  cases hm with
  | same _ => exact stays_of_eq rfl
  | @sent e p st now => exact stays_of_eq (onSent_frame a s.cc s.flight.bytes (p.sent now).size now p.pn p.inFlight).2.2.2.2.2.2.1
  | rolled => exact ctlRollback_stays f a _
  | lost now _ _ bytes n _ =>
    refine Stays.trans (lossWith_stays f a s.cc s.flight.bytes bytes now (newest out.lost)) (stays_of_eq rfl)
  | @acked e rs d st now sk out sp _ flight bytes n r ha _ =>
    have h1 : Stays s.cc (if sp = true then (ctl f a).rollback s.cc else s.cc) := by
      split
      · exact ctlRollback_stays f a _
      · exact stays_of_eq rfl
    refine (h1.trans (lossWith_stays f a _ s.flight.bytes bytes now (newest out.lost))).trans ?_
    refine Stays.trans (t := (ctl f a).addLost _ n) (stays_of_eq rfl) ?_
    exact onAcked_stays f a _ flight out.acked r now

theorem setSize_frame (s : Sys φ) (n : Nat) : (s.setSize n).core.cc.exit = s.core.cc.exit ∧ (s.setSize n).core.cc.hy = s.core.cc.hy := by
  unfold Sys.setSize
  dsimp only
  split <;> exact ⟨rfl, rfl⟩

theorem step_stays (f : Curve φ) (a : Algo) (scale : Bool → Nat → Nat) (q hf : Nat → Nat) (s : Sys φ) (c : Call) :
    Stays s.core.cc (s.step (env f a scale q hf) c).1.core.cc := by
  cases c with
  | base o => exact move_stays f a (step_move (env f a scale q hf) s.core o)
  | limited v => exact stays_of_eq rfl
  | pmtu n => exact stays_of_eq (setSize_frame s n).1
  | peerMax n => exact stays_of_eq (setSize_frame s _).1

/-- The recorded exit from slow start does not change. -/
theorem exit_once (f : Curve φ) (a : Algo) (scale : Bool → Nat → Nat) (q hf : Nat → Nat) (s : Sys φ) (x : Nat × Bool) (h : s.core.cc.exit = some x) :
    ∀ calls : List Call, (s.run (env f a scale q hf) calls).core.cc.exit = some x := by
  intro calls
  induction calls generalizing s with
  | nil => exact h
  | cons c calls ih => exact ih _ (step_stays f a scale q hf s c x h)

/-! ### Slow start is not entered again -/

/-- In slow start nothing has been recorded; afterwards the window is not below the
threshold, also when the last reduction is undone. -/
structure Left (s : St φ) : Prop where
  fresh : s.exit = none → s.ssthresh = usizeMax ∧ s.recStart = none ∧ s.prior.cwnd = 0
  left : s.exit.isSome = true → s.ssthresh ≤ s.cwnd

theorem isSome_or {α : Type} (o : Option α) : o = none ∨ o.isSome = true := by
  cases o
  · exact Or.inl rfl
  · exact Or.inr rfl

theorem hyAck_left (s : St φ) (p : Acked) (rtt now : Nat) (h : Left s) : Left (s.hyAck p rtt now) := by
  obtain ⟨h1, _, _, h4, h5, _⟩ := hyAck_frame s p rtt now
  rcases hyAck_thresh s p rtt now with ⟨e1, e2⟩ | ⟨e1, e2, _⟩
  · refine ⟨fun h' => ?_, fun h' => ?_⟩
    · rw [e2] at h'
      rw [e1, h4, h5]
      exact h.fresh h'
    · rw [e2] at h'
      rw [e1, h1]
      exact h.left h'
  · refine ⟨fun h' => ?_, fun _ => ?_⟩
    · rw [e2] at h'; cases h'
    · rw [e1, h1]; exact Nat.le_refl _

/-- A larger window. -/
theorem left_more {s t : St φ} (h : Left s) (h1 : t.exit = s.exit) (h2 : t.ssthresh = s.ssthresh) (h3 : t.recStart = s.recStart)
    (h4 : t.prior = s.prior) (h5 : s.cwnd ≤ t.cwnd) : Left t := by
  refine ⟨fun h' => ?_, fun h' => ?_⟩
  · rw [h1] at h'; rw [h2, h3, h4]; exact h.fresh h'
  · rw [h1] at h'; rw [h2]; exact Nat.le_trans (h.left h') h5

theorem rollback_left (f : Curve φ) (s : St φ) (h : Left s) : Left (cubicRollback f s).2 := by
  unfold cubicRollback
  split
  · exact h
  · rename_i h1
    split
    · exact h
    · rename_i h2
      refine ⟨fun h' => (by cases h'), fun _ => Nat.le_of_not_lt h1⟩

theorem renoAck_left (now : Nat) (r : Rtt) (s : St φ) (p : Acked) (h : Left s) : Left (renoAck now r s p) := by
  unfold renoAck
  split
  · exact h
  · split
    · exact h
    · split
      · exact hyAck_left _ _ _ _ (left_more h rfl rfl rfl rfl (Nat.le_add_right _ _))
      · split
        · exact left_more h rfl rfl rfl rfl (Nat.le_add_right _ _)
        · exact left_more h rfl rfl rfl rfl (Nat.le_refl _)

theorem cubicAck_left (f : Curve φ) (flight now : Nat) (r : Rtt) (s : St φ) (p : Acked) (h : Left s)
    (hc : (cubicAck f flight now r s p).cwnd < usizeMax) : Left (cubicAck f flight now r s p) := by
  have hlt := Nat.lt_of_le_of_lt (cubicAck_grows f flight now r s p).cwnd hc
  unfold cubicAck
  split
  · exact left_more h rfl rfl rfl rfl (Nat.le_refl _)
  · split
    · exact h
    · split
      · unfold cubicUndo
        split
        · exact rollback_left f s h
        · exact h
      · split
        · unfold cubicSlow
          refine hyAck_left _ _ _ _ ?_
          split
          · exact left_more h rfl rfl rfl rfl (Nat.le_add_right _ _)
          · exact left_more h rfl rfl rfl rfl (Nat.le_refl _)
        · rename_i hge
          have he := cubicAvoid_exit f now r s p
          have hg := cubicAvoid_grows f now r s p
          refine ⟨fun h' => ?_, fun h' => ?_⟩
          · rw [he.1] at h'
            rw [(h.fresh h').1] at hge
            exact absurd hlt hge
          · rw [he.1] at h'
            rw [he.2]
            exact Nat.le_trans (h.left h') hg.cwnd

theorem cubicFold_left (f : Curve φ) (flight now : Nat) (r : Rtt) : ∀ (l : List Acked) (s : St φ), Left s →
    (l.foldl (cubicAck f flight now r) s).cwnd < usizeMax → Left (l.foldl (cubicAck f flight now r) s) := by
  intro l
  induction l with
  | nil => intro s h _; exact h
  | cons p l ih =>
    intro s h hc
    refine ih _ (cubicAck_left f flight now r s p h ?_) hc
    exact Nat.lt_of_le_of_lt (foldl_grows _ (cubicAck_grows f flight now r) l _).cwnd hc

theorem onAcked_left (f : Curve φ) (a : Algo) (s : St φ) (flight : Nat) (l : List Acked) (r : Rtt) (now : Nat) (h : Left s)
    (hc : (onAcked f a s flight l r now).cwnd < usizeMax) : Left (onAcked f a s flight l r now) := by
  cases a with
  | reno =>
    clear hc
    show Left (l.foldl (renoAck now r) s)
    induction l generalizing s with
    | nil => exact h
    | cons p l ih => exact ih _ (renoAck_left now r s p h)
  | cubic => exact cubicFold_left f flight now r l { s with lastAck := some now } (left_more h rfl rfl rfl rfl (Nat.le_refl _)) hc

theorem lossWith_left (f : Curve φ) (a : Algo) (s : St φ) (flight bytes now : Nat) (o : Option Sent) (h : Left s) :
    Left (lossWith (ctl f a) s flight bytes now o) := by
  rcases lossWith_cases f a s flight bytes now o with ⟨he, _⟩ | ⟨hc, _⟩
  · rw [he]; exact h
  · refine ⟨fun h' => ?_, fun _ => ?_⟩
    · rw [hc.exit] at h'; cases h'
    · rw [hc.ssthresh, hc.cwnd]; exact Nat.le_refl _

theorem ctlRollback_left (f : Curve φ) (a : Algo) (s : St φ) (h : Left s) : Left ((ctl f a).rollback s) := by
  cases a with
  | reno => exact h
  | cubic => exact rollback_left f s h

theorem onSent_rec (a : Algo) (s : St φ) (flight sent now pn : Nat) (inFlight : Bool) (h : s.recStart = none) :
    (onSent a s flight sent now pn inFlight).recStart = none := by
  unfold onSent
  split
  · have : ∀ (x : St φ) (pn : Nat), (x.hySent pn).recStart = x.recStart := by
      intro x pn; unfold St.hySent; split <;> rfl
    rw [this]
    show (algoSent a _ _ _ _ : St φ).recStart = none
    unfold algoSent
    split
    · exact h
    · unfold cubicSent
      split
      · exact h
      · show St.shifted _ _ _ = none
        unfold St.shifted
        split
        · rename_i h1 _
          have h1' : s.recStart = some _ := h1
          rw [h] at h1'
          cases h1'
        · exact h
  · exact h

theorem move_left (f : Curve φ) (a : Algo) {s : State (St φ)} {o : Op} {out : Out} {c : St φ} (hm : Move (ctl f a) s o out c)
    (h : Left s.cc) (hc : c.cwnd < usizeMax) : Left c := by
  cases hm with
  | same _ => exact h
  | @sent e p st now =>
    obtain ⟨f1, _, _, _, f5, f6, f7, _⟩ := onSent_frame a s.cc s.flight.bytes (p.sent now).size now p.pn p.inFlight
    refine ⟨fun h' => ?_, fun h' => ?_⟩
    · have h'' : s.cc.exit = none := f7.symm.trans h'
      obtain ⟨g1, g2, g3⟩ := h.fresh h''
      exact ⟨f6.trans g1, onSent_rec a _ _ _ _ _ _ g2, (congrArg Prior.cwnd f5).trans g3⟩
    · have h'' : s.cc.exit.isSome = true := by rw [← f7]; exact h'
      exact Nat.le_trans (Nat.le_of_eq f6) (Nat.le_trans (h.left h'') (Nat.le_of_eq f1.symm))
  | rolled => exact ctlRollback_left f a _ h
  | lost now _ _ bytes n _ => exact left_more (lossWith_left f a s.cc s.flight.bytes bytes now (newest out.lost) h) rfl rfl rfl rfl (Nat.le_refl _)
  | @acked e rs d st now sk out sp _ flight bytes n r ha _ =>
    refine onAcked_left f a _ flight out.acked r now ?_ hc
    refine left_more (lossWith_left f a _ s.flight.bytes bytes now (newest out.lost) ?_) rfl rfl rfl rfl (Nat.le_refl _)
    split
    · exact ctlRollback_left f a _ h
    · exact h

theorem run_left (f : Curve φ) (a : Algo) (scale : Bool → Nat → Nat) (q hf : Nat → Nat) : ∀ (calls : List Call) (s : Sys φ), Left s.core.cc →
    (∀ c ∈ calls, resizes c = false) → (∀ ev ∈ trace (env f a scale q hf) s calls, ev.after < usizeMax) →
    Left (s.run (env f a scale q hf) calls).core.cc := by
  intro calls
  induction calls with
  | nil => intro s h _ _; exact h
  | cons c calls ih =>
    intro s h hr hl
    refine ih (s.step (env f a scale q hf) c).1 ?_ (fun x hx => hr x (List.mem_cons_of_mem _ hx)) (fun ev he => hl ev (List.mem_cons_of_mem _ he))
    have h2 := hl _ List.mem_cons_self
    cases c with
    | base o => exact move_left f a (step_move (env f a scale q hf) s.core o) h h2
    | limited v => exact left_more h rfl rfl rfl rfl (Nat.le_refl _)
    | pmtu n => exact absurd (hr _ List.mem_cons_self) (by simp [resizes])
    | peerMax n => exact absurd (hr _ List.mem_cons_self) (by simp [resizes])

/-- The controller is in slow start exactly as long as no exit has been recorded, as long
as the datagram size does not change. -/
theorem slow_start_once (f : Curve φ) (a : Algo) (scale : Bool → Nat → Nat) (q hf : Nat → Nat) (size pkts : Nat) (hy fix : Bool) (t0 r d : Nat)
    (calls : List Call) (hr : ∀ c ∈ calls, resizes c = false) (s : Sys φ)
    (hs : (Sys.new f size pkts hy fix t0 r d).run (env f a scale q hf) calls = s)
    (hl : ∀ ev ∈ trace (env f a scale q hf) (Sys.new f size pkts hy fix t0 r d) calls, ev.after < usizeMax) (hlast : s.core.cc.cwnd < usizeMax) :
    s.core.cc.cwnd < s.core.cc.ssthresh ↔ s.core.cc.exit = none := by
  have h := run_left f a scale q hf calls (Sys.new f size pkts hy fix t0 r d) ⟨fun _ => ⟨rfl, rfl, rfl⟩, (fun h => by cases h)⟩ hr hl
  rw [hs] at h
  constructor
  · intro hlt
    rcases isSome_or s.core.cc.exit with h1 | h1
    · exact h1
    · exact absurd (h.left h1) (Nat.not_le.2 hlt)
  · intro h1
    rw [(h.fresh h1).1]
    exact hlast

/-! ### Bytes acknowledged in slow start (CUBIC) -/

/-- The bytes of the packets newly acknowledged by a call. -/
def bytes (l : List Acked) : Nat := (l.map Acked.size).sum

/-- The bytes of the packets newly acknowledged in a history. -/
def total (l : List Event) : Nat := (l.map fun ev => bytes ev.out.acked).sum

def Paid (n : Nat) (s : St φ) : Prop := s.exit = none → s.cwnd + s.ackedSl ≤ n

theorem paid_hy (s : St φ) (p : Acked) (rtt now n : Nat) (h : Paid n s) : Paid n (s.hyAck p rtt now) := by
  intro h'
  rcases isSome_or s.exit with h1 | h1
  · obtain ⟨e1, _, _, _, _, _, _, _, e9⟩ := hyAck_frame s p rtt now
    rw [e1, e9]; exact h h1
  · obtain ⟨x, hx⟩ := Option.isSome_iff_exists.1 h1
    rw [hyAck_stays s p rtt now x hx] at h'
    cases h'

theorem none_of_stays {s t : St φ} (h : Stays s t) (ht : t.exit = none) : s.exit = none := by
  rcases isSome_or s.exit with h1 | h1
  · exact h1
  · obtain ⟨x, hx⟩ := Option.isSome_iff_exists.1 h1
    rw [h x hx] at ht
    cases ht

theorem cubicAck_paid (f : Curve φ) (flight now : Nat) (r : Rtt) (s : St φ) (p : Acked) (n : Nat) (hl : Left s) (h : Paid n s)
    (hc : (cubicAck f flight now r s p).cwnd < usizeMax) : Paid (n + p.size) (cubicAck f flight now r s p) := by
  intro h'
  have he := none_of_stays (cubicAck_stays f flight now r s p) h'
  obtain ⟨g1, g2, g3⟩ := hl.fresh he
  have hlt := Nat.lt_of_le_of_lt (cubicAck_grows f flight now r s p).cwnd hc
  have hu : (cubicUndo f s).1 = false := by
    unfold cubicUndo
    rw [if_neg (by rw [g2]; simp)]
  have hp := h he
  revert h'
  unfold cubicAck
  rw [if_neg (by unfold St.inRecovery; rw [g2]; simp)]
  split
  · intro _; omega
  · rw [if_neg (by rw [hu]; simp), if_pos (by rw [g1]; exact hlt)]
    unfold cubicSlow
    refine paid_hy _ _ _ _ _ ?_
    intro _
    have hi := slowInc_le s
    split
    · show s.cwnd + s.slowInc + (s.ackedSl + p.size - s.mds) ≤ n + p.size
      omega
    · show s.cwnd + (s.ackedSl + p.size) ≤ n + p.size
      omega

theorem cubicFold_paid (f : Curve φ) (flight now : Nat) (r : Rtt) : ∀ (l : List Acked) (s : St φ) (n : Nat), Left s → Paid n s →
    (l.foldl (cubicAck f flight now r) s).cwnd < usizeMax → Paid (n + bytes l) (l.foldl (cubicAck f flight now r) s) := by
  intro l
  induction l with
  | nil => intro s n _ h _; exact h
  | cons p l ih =>
    intro s n hl h hc
    have hc' := Nat.lt_of_le_of_lt (foldl_grows _ (cubicAck_grows f flight now r) l _).cwnd hc
    have := ih _ (n + p.size) (cubicAck_left f flight now r s p hl hc') (cubicAck_paid f flight now r s p n hl h hc') hc
    unfold bytes at this ⊢
    rw [List.map_cons, List.sum_cons, ← Nat.add_assoc]
    exact this

theorem move_paid (f : Curve φ) {s : State (St φ)} {o : Op} {out : Out} {c : St φ} (hm : Move (ctl f .cubic) s o out c)
    (n : Nat) (hl : Left s.cc) (h : Paid n s.cc) (hc : c.cwnd < usizeMax) : Paid (n + bytes out.acked) c := by
  have hmono : ∀ {m k : Nat} {x : St φ}, m ≤ k → Paid m x → Paid k x := fun hle hp he => Nat.le_trans (hp he) hle
  have hsame : ∀ {x y : St φ} {k : Nat}, Paid k x → y.exit = x.exit → y.cwnd = x.cwnd → y.ackedSl = x.ackedSl → Paid k y := by
    intro x y k hp h1 h2 h3 he
    rw [h2, h3]; exact hp (h1.symm.trans he)
  have hroll : (cubicRollback f s.cc).2 = s.cc ∨ (cubicRollback f s.cc).2.exit ≠ none := by
    unfold cubicRollback
    split
    · exact Or.inl rfl
    · split
      · exact Or.inl rfl
      · exact Or.inr (by intro h; cases h)
  have hloss : ∀ (x : St φ) (k fl b now : Nat) (ps : Option Sent), Paid k x → Paid k (lossWith (ctl f .cubic) x fl b now ps) := by
    intro x k fl b now ps hx
    rcases lossWith_cases f .cubic x fl b now ps with ⟨he, _⟩ | ⟨hcut, _⟩
    · rw [he]; exact hx
    · intro h'; rw [hcut.exit] at h'; cases h'
  cases hm with
  | same _ => exact hmono (Nat.le_add_right _ _) h
  | @sent e p st now =>
    obtain ⟨f1, _, _, _, _, _, f7, f8⟩ := onSent_frame .cubic s.cc s.flight.bytes (p.sent now).size now p.pn p.inFlight
    exact hmono (Nat.le_add_right _ _) (hsame h f7 f1 f8)
  | rolled =>
    refine hmono (Nat.le_add_right _ _) ?_
    show Paid n (cubicRollback f s.cc).2
    rcases hroll with h1 | h1
    · rw [h1]; exact h
    · intro h2; exact absurd h2 h1
  | lost now _ _ bytes k _ =>
    exact hmono (Nat.le_add_right _ _) (hsame (hloss s.cc n s.flight.bytes bytes now (newest out.lost) h) rfl rfl rfl)
  | @acked e rs d st now sk out sp _ flight b k r ha _ =>
    have hx : Left (if sp = true then (ctl f Algo.cubic).rollback s.cc else s.cc) ∧ Paid n (if sp = true then (ctl f Algo.cubic).rollback s.cc else s.cc) := by
      split
      · refine ⟨rollback_left f s.cc hl, ?_⟩
        show Paid n (cubicRollback f s.cc).2
        rcases hroll with h1 | h1
        · rw [h1]; exact h
        · intro h2; exact absurd h2 h1
      · exact ⟨hl, h⟩
    refine cubicFold_paid f flight now r out.acked _ n ?_ ?_ hc
    · exact left_more (lossWith_left f .cubic _ s.flight.bytes b now (newest out.lost) hx.1) rfl rfl rfl rfl (Nat.le_refl _)
    · exact hsame (hloss _ n s.flight.bytes b now (newest out.lost) hx.2) rfl rfl rfl

theorem run_paid (f : Curve φ) (scale : Bool → Nat → Nat) (q hf : Nat → Nat) : ∀ (calls : List Call) (s : Sys φ) (n : Nat), Left s.core.cc →
    Paid n s.core.cc → (∀ c ∈ calls, resizes c = false) → (∀ ev ∈ trace (env f .cubic scale q hf) s calls, ev.after < usizeMax) →
    Paid (n + total (trace (env f .cubic scale q hf) s calls)) (s.run (env f .cubic scale q hf) calls).core.cc := by
  intro calls
  induction calls with
  | nil => intro s n _ h _ _; exact h
  | cons c calls ih =>
    intro s n hl h hr hb
    have h2 := hb _ List.mem_cons_self
    have key := fun k h1 h2 => ih (s.step (env f .cubic scale q hf) c).1 k h1 h2 (fun x hx => hr x (List.mem_cons_of_mem _ hx))
      (fun ev he => hb ev (List.mem_cons_of_mem _ he))
    have ht : n + total (trace (env f .cubic scale q hf) s (c :: calls)) =
        n + bytes (s.step (env f .cubic scale q hf) c).2.acked + total (trace (env f .cubic scale q hf) (s.step (env f .cubic scale q hf) c).1 calls) := by
      rw [trace]
      unfold total
      rw [List.map_cons, List.sum_cons, ← Nat.add_assoc]
    rw [ht]
    cases c with
    | base o =>
      exact key _ (move_left f .cubic (step_move (env f .cubic scale q hf) s.core o) hl h2)
        (move_paid f (step_move (env f .cubic scale q hf) s.core o) n hl h h2)
    | limited v =>
      exact key _ (left_more hl rfl rfl rfl rfl (Nat.le_refl _)) (fun he => Nat.le_trans (h he) (Nat.le_add_right _ _))
    | pmtu n => exact absurd (hr _ List.mem_cons_self) (by simp [resizes])
    | peerMax n => exact absurd (hr _ List.mem_cons_self) (by simp [resizes])

/-- CUBIC: until slow start is left, the window is at most the initial one and the bytes
acknowledged. -/
theorem cubic_partial (f : Curve φ) (scale : Bool → Nat → Nat) (q hf : Nat → Nat) (size pkts : Nat) (hy fix : Bool) (t0 r d : Nat)
    (calls : List Call) (hr : ∀ c ∈ calls, resizes c = false)
    (hb : ∀ ev ∈ trace (env f .cubic scale q hf) (Sys.new f size pkts hy fix t0 r d) calls, ev.after < usizeMax)
    (he : ((Sys.new f size pkts hy fix t0 r d).run (env f .cubic scale q hf) calls).core.cc.exit = none) :
    ((Sys.new f size pkts hy fix t0 r d).run (env f .cubic scale q hf) calls).core.cc.cwnd ≤
      size * pkts + total (trace (env f .cubic scale q hf) (Sys.new f size pkts hy fix t0 r d) calls) := by
  have := run_paid f scale q hf calls (Sys.new f size pkts hy fix t0 r d) (size * pkts) ⟨fun _ => ⟨rfl, rfl, rfl⟩, (fun h => by cases h)⟩
    (fun _ => Nat.le_refl _) hr hb he
  omega

/-! ### Concrete cases -/

open Verif.Props.C122 (flat with_ done pkt tx ack timer start rounds)
open Verif.Props.C124 (ten)

/-- The recorded exit, the window and the threshold. -/
def summary (a : Algo) (l : List Call) : Option (Nat × Bool) × Nat × Nat :=
  let s := ((start 10).run (with_ a) l).core.cc
  (s.exit, s.cwnd, s.ssthresh)

example : summary .cubic (ten 0 0 ++ [ack [(0, 10)] 100]) = (none, 24000, usizeMax) := by decide +kernel
example : summary .cubic (ten 0 0 ++ [ack [(0, 1), (2, 10)] 100]) = (some (8400, false), 8400, 8400) := by decide +kernel
-- A later reduction does not change it.
example : summary .reno (rounds 2) = (some (6000, false), 3000, 3000) := by decide +kernel

/-- Twenty-four packets of 100 bytes in a window of two datagrams. -/
def small : List Call := (List.range 24).map (fun i => tx i 100 0) ++ [ack [(0, 24)] 100]

example : (total (trace (with_ .cubic) (start 2) small), ((start 2).run (with_ .cubic) small).core.cc.cwnd) = (2400, 4800) := by decide +kernel
example : (total (trace (with_ .reno) (start 2) small), ((start 2).run (with_ .reno) small).core.cc.cwnd) = (2400, 31200) := by decide +kernel

/-- The full claim, for Reno as well, is false: Reno adds a datagram for every packet
acknowledged, whatever its size. -/
theorem claim_false : ¬ ∀ (calls : List Call), Ordered 0 calls → (∀ c ∈ calls, resizes c = false) →
    ((start 2).run (with_ .reno) calls).core.cc.exit = none →
    ((start 2).run (with_ .reno) calls).core.cc.cwnd ≤ 2400 + total (trace (with_ .reno) (start 2) calls) := by
  intro h
  exact absurd (h small (by decide +kernel) (by decide +kernel) (by decide +kernel)) (by decide +kernel)

end Verif.Props.C126
