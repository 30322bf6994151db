import Verif.Cong.Trace
import Verif.Props.C122

/-!
C123: the congestion window is reduced when a packet sent since the last reduction is
lost, and only then.
-/

namespace Verif.Props.C123

open Verif.Rec Verif.Cong

variable {φ : Type}

/-! ### What is to hold -/

/-- The reductions RFC 9002, 7.3 asks for; `since` is the time of the last one. When the
newest packet found lost was sent after it, the window is halved, but not below two
datagrams of size `m`; in all other calls it does not shrink. -/
def Halves (m : Nat) : Option Nat → List Event → Prop
  | _, [] => True
  | since, ev :: l =>
    if resizes ev.call = true then Halves m since l
    else if newer since ev.out = true then ev.after = Nat.max (ev.before / 2) (2 * m) ∧ Halves m (callTime ev.call) l
    else ev.before ≤ ev.after ∧ Halves m since l

/-- The window shrinks, unless it is at most two datagrams of size `m`, whenever the newest
packet found lost was sent after the last such call. -/
def Responds (m : Nat) : Option Nat → List Event → Prop
  | _, [] => True
  | since, ev :: l =>
    if newer since ev.out = true then (ev.after < ev.before ∨ ev.before ≤ 2 * m) ∧ Responds m (callTime ev.call) l
    else Responds m since l

/-- Whenever the window shrinks in a call that reports no spurious loss, a packet was found
lost that was sent after each of the earlier reductions `act` (time, window before it)
that have not been made up for by growth since. -/
def Once : List (Nat × Nat) → List Event → Prop
  | _, [] => True
  | act, ev :: l =>
    (ev.after < ev.before → ev.out.counts.2.2.2 = 0 →
      ∃ p ∈ ev.out.lost, counts p = true ∧ ∀ x ∈ act, x.1 < p.timeSent) ∧
    Once ((if ev.after < ev.before then ((callTime ev.call).getD 0, ev.before) :: act else act).filter fun x => ev.after < x.2) l

/-! ### Reno -/

theorem renoAck_rec (now : Nat) (r : Rtt) (s : St φ) (p : Acked) : (renoAck now r s p).recStart = s.recStart := by
  unfold renoAck
  split
  · rfl
  · split
    · rfl
    · split
      · exact (hyAck_frame _ p r.latest now).2.2.2.1
      · split <;> rfl

theorem renoFold_rec (now : Nat) (r : Rtt) : ∀ (l : List Acked) (s : St φ), (l.foldl (renoAck now r) s).recStart = s.recStart := by
  intro l
  induction l with
  | nil => intro s; rfl
  | cons p l ih => intro s; exact (ih _).trans (renoAck_rec now r s p)

theorem renoFold_inRec (now : Nat) (r : Rtt) : ∀ (l : List Acked) (s : St φ), (∀ p ∈ l, s.inRecovery p.timeSent = true) →
    l.foldl (renoAck now r) s = s := by
  intro l
  induction l with
  | nil => intro s _; rfl
  | cons p l ih =>
    intro s h
    have : renoAck now r s p = s := by
      unfold renoAck
      rw [if_pos (h p List.mem_cons_self)]
    rw [List.foldl_cons, this]
    exact ih s fun q hq => h q (List.mem_cons_of_mem _ hq)

theorem renoSent_rec (s : St φ) (flight sent now pn : Nat) (inFlight : Bool) :
    (onSent .reno s flight sent now pn inFlight).recStart = s.recStart := by
  unfold onSent
  split
  · unfold St.hySent
    split <;> rfl
  · rfl

theorem inRec_newer {s : St φ} {since : Option Nat} (h : s.recStart = since) {out : Out} {p : Sent} (hp : newest out.lost = some p) :
    newer since out = !s.inRecovery p.timeSent := by
  unfold newer St.inRecovery
  rw [hp, h]
  cases since with
  | none => rfl
  | some t =>
    simp only
    by_cases hq : p.timeSent ≤ t
    · simp [hq, Nat.not_lt.2 hq]
    · simp [hq, Nat.lt_of_not_le hq]

theorem newer_none {since : Option Nat} {out : Out} (h : newest out.lost = none) : newer since out = false := by
  unfold newer
  rw [h]

/-- One call of Reno. -/
theorem reno_move (f : Curve φ) {s : State (St φ)} {o : Op} {out : Out} {c : St φ} (hm : Move (ctl f .reno) s o out c) {T : Nat}
    (hT : SentBy T s) (ho : ∀ now, opTime o = some now → T ≤ now) {since : Option Nat} (hr : s.cc.recStart = since) :
    (newer since out = true ∧ c.cwnd = Nat.max (s.cc.cwnd / 2) (2 * s.cc.mds) ∧ c.recStart = opTime o ∧ (opTime o).isSome = true) ∨
    (newer since out = false ∧ s.cc.cwnd ≤ c.cwnd ∧ c.recStart = since) := by
  cases hm with
  | same h => exact Or.inr ⟨newer_none (by rw [h]; rfl), Nat.le_refl _, hr⟩
  | sent => exact Or.inr ⟨rfl, (onSent_grows _ _ _ _ _ _ _).cwnd, (renoSent_rec _ _ _ _ _ _).trans hr⟩
  | rolled => exact Or.inr ⟨rfl, Nat.le_refl _, hr⟩
  | lost now hnow _ bytes n _ =>
    rcases lossWith_cases f .reno s.cc s.flight.bytes bytes now (newest out.lost) with ⟨he, hq⟩ | ⟨hcut, p, hp, hq⟩
    · refine Or.inr ⟨?_, ?_, ?_⟩
      · cases hn : newest out.lost with
        | none => exact newer_none hn
        | some p => rw [inRec_newer hr hn, hq p hn]; rfl
      · show s.cc.cwnd ≤ (lossWith _ _ _ _ _ _ : St φ).cwnd
        rw [he]; exact Nat.le_refl _
      · show (lossWith _ _ _ _ _ _ : St φ).recStart = since
        rw [he]; exact hr
    · refine Or.inl ⟨?_, ?_, ?_, by rw [hnow]; rfl⟩
      · rw [inRec_newer hr hp, hq]; rfl
      · show (lossWith _ _ _ _ _ _ : St φ).cwnd = _
        rw [hcut.cwnd, Nat.mul_comm]; rfl
      · show (lossWith _ _ _ _ _ _ : St φ).recStart = _
        rw [hcut.recStart, hnow]
  | @acked e rs d st now sk out sp _ flight bytes n r ha _ =>
    have hsp : (if sp = true then (ctl f Algo.reno).rollback s.cc else s.cc) = s.cc := by split <;> rfl
    rw [hsp]
    have hnow := ho now rfl
    rcases lossWith_cases f .reno s.cc s.flight.bytes bytes now (newest out.lost) with ⟨he, hq⟩ | ⟨hcut, p, hp, hq⟩
    · refine Or.inr ⟨?_, ?_, ?_⟩
      · cases hn : newest out.lost with
        | none => exact newer_none hn
        | some p => rw [inRec_newer hr hn, hq p hn]; rfl
      · rw [he]
        exact (onAcked_grows f .reno ((ctl f Algo.reno).addLost s.cc n) flight _ r now).cwnd
      · show (List.foldl (renoAck now r) _ out.acked).recStart = since
        rw [renoFold_rec]
        show (lossWith _ _ _ _ _ _ : St φ).recStart = since
        rw [he]; exact hr
    · have hfix : (ctl f Algo.reno).onAcked ((ctl f Algo.reno).addLost (lossWith (ctl f Algo.reno) s.cc s.flight.bytes bytes now (newest out.lost)) n)
          flight out.acked r now = (ctl f Algo.reno).addLost (lossWith (ctl f Algo.reno) s.cc s.flight.bytes bytes now (newest out.lost)) n := by
        show List.foldl (renoAck now r) _ out.acked = _
        refine renoFold_inRec now r _ _ ?_
        intro a haa
        obtain ⟨q, hq1, hq2, _⟩ := ha a haa
        rw [inRecovery_iff]
        refine ⟨now, hcut.recStart, ?_⟩
        rw [hq2]
        exact Nat.le_trans (hT _ q hq1) hnow
      rw [hfix]
      refine Or.inl ⟨?_, ?_, ?_, rfl⟩
      · rw [inRec_newer hr hp, hq]; rfl
      · show (lossWith _ _ _ _ _ _ : St φ).cwnd = _
        rw [hcut.cwnd, Nat.mul_comm]; rfl
      · show (lossWith _ _ _ _ _ _ : St φ).recStart = _
        rw [hcut.recStart]; rfl

theorem step_mds (f : Curve φ) (a : Algo) (scale : Bool → Nat → Nat) (q hf : Nat → Nat) (s : Sys φ) (c : Call) :
    (s.step (env f a scale q hf) c).1.core.cc.mds = s.core.cc.mds := by
  cases c with
  | base o =>
    exact move_keeps f a (fun x => x.mds = s.core.cc.mds) (fun x y hx hg => hg.mds.trans hx) (fun x y _ hx hc => hc.mds.trans hx)
      (fun x n hx => hx) rfl (step_move (env f a scale q hf) s.core o)
  | limited v => rfl
  | pmtu n =>
    show (s.setSize n).core.cc.mds = _
    unfold Sys.setSize
    dsimp only
    split <;> rfl
  | peerMax n =>
    show (s.setSize _).core.cc.mds = _
    unfold Sys.setSize
    dsimp only
    split <;> rfl

theorem setSize_core (s : Sys φ) (n : Nat) (e : Epoch) : (s.setSize n).core.get e = s.core.get e ∧ (s.setSize n).core.cc.recStart = s.core.cc.recStart := by
  unfold Sys.setSize
  dsimp only
  split
  · exact ⟨by cases e <;> rfl, rfl⟩
  · exact ⟨rfl, rfl⟩

theorem step_sent (en : Env (St φ)) {s : Sys φ} {T : Nat} (h : SentBy T s.core) {c : Call} (hc : ∀ now, callTime c = some now → T ≤ now) :
    SentBy ((callTime c).getD T) (s.step en c).1.core := by
  cases c with
  | base o => exact step_sentBy en h o hc
  | limited v => intro e p hp; exact h e p (by cases e <;> exact hp)
  | pmtu n =>
    intro e p hp
    have hp' : p ∈ ((s.setSize n).core.get e).sent := hp
    rw [(setSize_core s n e).1] at hp'
    exact h e p hp'
  | peerMax n =>
    intro e p hp
    have hp' : p ∈ ((s.setSize (Nat.min s.size n)).core.get e).sent := hp
    rw [(setSize_core s _ e).1] at hp'
    exact h e p hp'

theorem reno_trace (f : Curve φ) (scale : Bool → Nat → Nat) (q hf : Nat → Nat) (m : Nat) : ∀ (calls : List Call) (s : Sys φ) (T : Nat) (since : Option Nat),
    Ordered T calls → SentBy T s.core → s.core.cc.mds = m → s.core.cc.recStart = since →
    Halves m since (trace (env f .reno scale q hf) s calls) := by
  intro calls
  induction calls with
  | nil => intros; trivial
  | cons c calls ih =>
    intro s T since ho hT hm hr
    have hsent := step_sent (env f .reno scale q hf) hT (ordered_time ho)
    have hmds := (step_mds f .reno scale q hf s c).trans hm
    have key := fun since' hr' => ih (s.step (env f .reno scale q hf) c).1 _ since' ho.2 hsent hmds hr'
    unfold trace Halves
    cases c with
    | base o =>
      rw [if_neg (by simp [resizes])]
      rcases reno_move f (step_move (env f .reno scale q hf) s.core o) hT (ordered_time ho) hr with ⟨h1, h2, h3, _⟩ | ⟨h1, h2, h3⟩
      · rw [if_pos (by exact h1)]
        refine ⟨?_, key _ h3⟩
        rw [← hm]; exact h2
      · rw [if_neg (by show ¬ newer since (Rec.step (env f .reno scale q hf) s.core o).2 = true; rw [h1]; simp)]
        exact ⟨h2, key _ h3⟩
    | limited v =>
      rw [if_neg (by simp [resizes]), if_neg (by simp [newer, newest, Sys.step, Out.none])]
      exact ⟨Nat.le_refl _, key _ hr⟩
    | pmtu n =>
      rw [if_pos (by simp [resizes])]
      exact key _ ((setSize_core s n .initial).2.trans hr)
    | peerMax n =>
      rw [if_pos (by simp [resizes])]
      exact key _ ((setSize_core s _ .initial).2.trans hr)

/-- Reno: the window is halved, but not below two datagrams, exactly when the newest packet
found lost was sent after the last reduction. It shrinks in no other call, except one that
sets the datagram size. -/
theorem reno (f : Curve φ) (scale : Bool → Nat → Nat) (q hf : Nat → Nat) (size pkts : Nat) (hy fix : Bool) (t0 r d : Nat) (calls : List Call)
    (ho : Ordered 0 calls) : Halves size none (trace (env f .reno scale q hf) (Sys.new f size pkts hy fix t0 r d) calls) :=
  reno_trace f scale q hf size calls _ 0 none ho (fun e p hp => by cases e <;> cases hp) rfl rfl

theorem halves_responds (m : Nat) : ∀ (l : List Event) (since : Option Nat), Halves m since l → (∀ ev ∈ l, resizes ev.call = false) →
    Responds m since l := by
  intro l
  induction l with
  | nil => intros; trivial
  | cons ev l ih =>
    intro since h hs
    unfold Halves at h
    rw [if_neg (by rw [hs ev List.mem_cons_self]; simp)] at h
    unfold Responds
    have hs' : ∀ ev ∈ l, resizes ev.call = false := fun e he => hs e (List.mem_cons_of_mem _ he)
    split
    · rename_i hn
      rw [if_pos hn] at h
      refine ⟨?_, ih _ h.2 hs'⟩
      rw [h.1]
      by_cases hb : ev.before ≤ 2 * m
      · exact Or.inr hb
      · exact Or.inl (Nat.max_lt.2 ⟨by omega, by omega⟩)
    · rename_i hn
      rw [if_neg hn] at h
      exact ih _ h.2 hs'

theorem trace_calls (en : Env (St φ)) : ∀ (calls : List Call) (s : Sys φ), ∀ ev ∈ trace en s calls, ev.call ∈ calls := by
  intro calls
  induction calls with
  | nil => intro s ev h; cases h
  | cons c l ih =>
    intro s ev h
    rcases List.mem_cons.1 h with h | h
    · rw [h]; exact List.mem_cons_self
    · exact List.mem_cons_of_mem _ (ih _ ev h)

/-- Reno reacts to every loss of a packet sent after its last reaction. -/
theorem responds (f : Curve φ) (scale : Bool → Nat → Nat) (q hf : Nat → Nat) (size pkts : Nat) (hy fix : Bool) (t0 r d : Nat) (calls : List Call)
    (ho : Ordered 0 calls) (hr : ∀ c ∈ calls, resizes c = false) :
    Responds size none (trace (env f .reno scale q hf) (Sys.new f size pkts hy fix t0 r d) calls) :=
  halves_responds size _ none (reno f scale q hf size pkts hy fix t0 r d calls ho) fun ev he => hr _ (trace_calls _ _ _ ev he)

/-! ### CUBIC -/

/-- A reduction at time `t` from the window `w` has been made up for, or is known to the
controller, also if it undoes its last one. -/
def Kept (x : St φ) (t w : Nat) : Prop :=
  w ≤ x.cwnd ∨
  ((∃ r, x.recStart = some r ∧ t ≤ r) ∧
    (w ≤ x.prior.cwnd ∨ x.prior.cwnd ≤ x.cwnd ∨ ∃ r, x.prior.epochStart = some r ∧ t ≤ r))

/-- The recovery start moves forward only, and starts. -/
def Later (x y : St φ) : Prop := ∀ r, x.recStart = some r → ∃ r', y.recStart = some r' ∧ r ≤ r'

theorem kept_grow {x y : St φ} {t w : Nat} (h : Kept x t w) (hc : x.cwnd ≤ y.cwnd) (hp : y.prior = x.prior) (hr : Later x y) : Kept y t w := by
  rcases h with h | ⟨⟨r, h1, h2⟩, h3⟩
  · exact Or.inl (Nat.le_trans h hc)
  · obtain ⟨r', h4, h5⟩ := hr r h1
    refine Or.inr ⟨⟨r', h4, Nat.le_trans h2 h5⟩, ?_⟩
    rw [hp]
    rcases h3 with h3 | h3 | h3
    · exact Or.inl h3
    · exact Or.inr (Or.inl (Nat.le_trans h3 hc))
    · exact Or.inr (Or.inr h3)

theorem kept_cut {f : Curve φ} {x y : St φ} {t w now : Nat} (h : Kept x t w) (hc : Cut f .cubic now x y) (ht : t ≤ now) : Kept y t w := by
  obtain ⟨p1, _, p3, _⟩ := hc.prior rfl
  refine Or.inr ⟨⟨now, hc.recStart, ht⟩, ?_⟩
  rcases h with h | ⟨⟨r, h1, h2⟩, _⟩
  · exact Or.inl (by rw [p1]; exact h)
  · exact Or.inr (Or.inr ⟨r, by rw [p3]; exact h1, h2⟩)

theorem kept_rollback {f : Curve φ} {x : St φ} {t w : Nat} (h : Kept x t w) : Kept (cubicRollback f x).2 t w := by
  unfold cubicRollback
  split
  · exact h
  · split
    · exact h
    · rename_i hlt
      have hlt' : x.cwnd < x.prior.cwnd := Nat.lt_of_not_le hlt
      rcases h with h | ⟨_, h⟩
      · exact Or.inl (Nat.le_trans h (Nat.le_of_lt hlt'))
      · rcases h with h | h | h
        · exact Or.inl h
        · exact absurd h hlt
        · exact Or.inr ⟨h, Or.inr (Or.inl (Nat.le_refl _))⟩

theorem later_refl (x : St φ) : Later x x := fun r h => ⟨r, h, Nat.le_refl _⟩

theorem later_of_eq {x y : St φ} (h : y.recStart = x.recStart) : Later x y := fun r hr => ⟨r, h.trans hr, Nat.le_refl _⟩

theorem kept_ack {f : Curve φ} {x : St φ} {t w : Nat} (flight now : Nat) (r : Rtt) (p : Acked) (h : Kept x t w) :
    Kept (cubicAck f flight now r x p) t w := by
  have hg := cubicAck_grows f flight now r x p
  unfold cubicAck at hg ⊢
  split
  · exact kept_grow h (Nat.le_refl _) rfl (later_refl _)
  · split
    · exact h
    · split
      · unfold cubicUndo
        split
        · exact kept_rollback h
        · exact h
      · split
        · refine kept_grow h (cubicSlow_grows now r x p).cwnd (cubicSlow_grows now r x p).prior (later_of_eq ?_)
          unfold cubicSlow
          rw [(hyAck_frame _ p r.latest now).2.2.2.1]
          split <;> rfl
        · refine kept_grow h (cubicAvoid_grows f now r x p).cwnd (cubicAvoid_grows f now r x p).prior ?_
          intro r0 hr0
          unfold cubicAvoid
          dsimp only
          rw [(cubicGrow_frame f _ _ (cubicStart f now x).2 p.size).2.2.2.2.2.2.2.2.2.2]
          rcases (cubicStart_frame f now x).2.2.2.2.2.2.2.2.2 with he | ⟨he, _⟩
          · exact ⟨r0, he.trans hr0, Nat.le_refl _⟩
          · rw [he] at hr0; cases hr0

theorem kept_acks {f : Curve φ} {t w : Nat} (flight now : Nat) (r : Rtt) : ∀ (l : List Acked) (x : St φ), Kept x t w →
    Kept (l.foldl (cubicAck f flight now r) x) t w := by
  intro l
  induction l with
  | nil => intro x h; exact h
  | cons p l ih => intro x h; exact ih _ (kept_ack flight now r p h)

theorem later_sent (s : St φ) (flight sent now pn : Nat) (inFlight : Bool) : Later s (onSent .cubic s flight sent now pn inFlight) := by
  intro r hr
  unfold onSent
  split
  · have h1 : ∀ (x : St φ), (x.hySent pn).recStart = x.recStart := by
      intro x; unfold St.hySent; split <;> rfl
    rw [h1]
    show ∃ r', (cubicSent { s with appLimited := decide (flight + sent < s.cwnd) } sent flight now).recStart = some r' ∧ r ≤ r'
    unfold cubicSent
    split
    · exact ⟨r, hr, Nat.le_refl _⟩
    · show ∃ r', St.shifted _ flight now = some r' ∧ r ≤ r'
      unfold St.shifted
      dsimp only
      split
      · rename_i r0 i h0 _
        rw [hr] at h0
        cases h0
        split
        · exact ⟨_, rfl, Nat.le_add_right _ _⟩
        · exact ⟨_, rfl, Nat.le_refl _⟩
      · exact ⟨r, hr, Nat.le_refl _⟩
  · exact ⟨r, hr, Nat.le_refl _⟩

/-- What a call of CUBIC keeps, and what it adds. -/
theorem cubic_move (f : Curve φ) {s : State (St φ)} {o : Op} {out : Out} {c : St φ} (hm : Move (ctl f .cubic) s o out c) {T : Nat}
    (ho : ∀ now, opTime o = some now → T ≤ now) :
    (∀ t w, t ≤ T → Kept s.cc t w → Kept c t w) ∧
    (c.cwnd < s.cc.cwnd → Kept c ((opTime o).getD 0) s.cc.cwnd ∧ (opTime o).isSome = true ∧
      (out.counts.2.2.2 = 0 → ∃ p ∈ out.lost, counts p = true ∧ s.cc.inRecovery p.timeSent = false)) := by
  cases hm with
  | same h => exact ⟨fun t w _ h => h, fun h => absurd h (Nat.lt_irrefl _)⟩
  | @sent e p st now =>
    have hg := onSent_grows .cubic s.cc s.flight.bytes (p.sent now).size now p.pn p.inFlight
    exact ⟨fun t w _ h => kept_grow h hg.cwnd hg.prior (later_sent _ _ _ _ _ _), fun h => absurd hg.cwnd (Nat.not_le.2 h)⟩
  | rolled => exact ⟨fun t w _ h => kept_rollback h, fun h => absurd (cubicRollback_grows f s.cc).cwnd (Nat.not_le.2 h)⟩
  | lost now hnow _ bytes n _ =>
    have hk : ∀ {t w : Nat} {x : St φ}, Kept x t w → Kept ((ctl f .cubic).addLost x n) t w := fun h => h
    rcases lossWith_cases f .cubic s.cc s.flight.bytes bytes now (newest out.lost) with ⟨he, hq⟩ | ⟨hcut, p, hp, hq⟩
    · rw [he]
      exact ⟨fun t w _ h => hk h, fun h => absurd h (Nat.lt_irrefl _)⟩
    · refine ⟨fun t w ht h => hk (kept_cut h hcut (Nat.le_trans ht (ho now hnow))), fun _ => ⟨?_, by rw [hnow]; rfl, fun _ => ?_⟩⟩
      · rw [hnow]
        exact hk (kept_cut (Or.inl (Nat.le_refl _)) hcut (Nat.le_refl _))
      · exact ⟨p, (newest_mem hp).1, (newest_mem hp).2, hq⟩
  | @acked e rs d st now sk out sp hsp flight bytes n r ha _ =>
    have hnow := ho now rfl
    have hk : ∀ {t w : Nat} {x : St φ}, Kept x t w →
        Kept ((ctl f .cubic).onAcked ((ctl f .cubic).addLost x n) flight out.acked r now) t w := by
      intro t w x h
      refine kept_acks flight now r out.acked _ ?_
      exact h
    have hx : ∀ t w, Kept s.cc t w → Kept (if sp = true then (ctl f Algo.cubic).rollback s.cc else s.cc) t w := by
      intro t w h
      split
      · exact kept_rollback h
      · exact h
    have hx' : s.cc.cwnd ≤ (if sp = true then (ctl f Algo.cubic).rollback s.cc else s.cc).cwnd := by
      split
      · exact (cubicRollback_grows f s.cc).cwnd
      · exact Nat.le_refl _
    rcases lossWith_cases f .cubic (if sp = true then (ctl f Algo.cubic).rollback s.cc else s.cc) s.flight.bytes bytes now (newest out.lost)
      with ⟨he, hq⟩ | ⟨hcut, p, hp, hq⟩
    · rw [he]
      refine ⟨fun t w _ h => hk (hx t w h), fun h => absurd h (Nat.not_lt.2 ?_)⟩
      exact Nat.le_trans hx' (onAcked_grows f .cubic ((ctl f Algo.cubic).addLost _ n) flight out.acked r now).cwnd
    · refine ⟨fun t w ht h => hk (kept_cut (hx t w h) hcut (Nat.le_trans ht hnow)), fun _ => ⟨?_, rfl, fun h0 => ?_⟩⟩
      · exact hk (kept_cut (Or.inl hx') hcut (Nat.le_refl _))
      · have hsf : sp = false := by
          cases sp with
          | false => rfl
          | true => exact absurd h0 (hsp rfl)
        subst hsf
        exact ⟨p, (newest_mem hp).1, (newest_mem hp).2, hq⟩

theorem cubic_trace (f : Curve φ) (scale : Bool → Nat → Nat) (q hf : Nat → Nat) : ∀ (calls : List Call) (s : Sys φ) (T : Nat) (act : List (Nat × Nat)),
    Ordered T calls → (∀ c ∈ calls, resizes c = false) →
    (∀ x ∈ act, x.1 ≤ T ∧ s.core.cc.cwnd < x.2 ∧ Kept s.core.cc x.1 x.2) →
    Once act (trace (env f .cubic scale q hf) s calls) := by
  intro calls
  induction calls with
  | nil => intros; trivial
  | cons c calls ih =>
    intro s T act ho hs ha
    have hs' : ∀ c ∈ calls, resizes c = false := fun x hx => hs x (List.mem_cons_of_mem _ hx)
    unfold trace Once
    dsimp only
    cases c with
    | base o =>
      have hT : T ≤ (callTime (.base o)).getD T := ho.1
      have hm := cubic_move f (step_move (env f .cubic scale q hf) s.core o) (ordered_time ho)
      refine ⟨fun hlt h0 => ?_, ih _ _ _ ho.2 hs' ?_⟩
      · obtain ⟨_, _, h3⟩ := hm.2 hlt
        obtain ⟨p, hp1, hp2, hp3⟩ := h3 h0
        refine ⟨p, hp1, hp2, fun x hx => ?_⟩
        obtain ⟨_, h5, h6⟩ := ha x hx
        rcases h6 with h6 | ⟨⟨r, h7, h8⟩, _⟩
        · exact absurd h6 (Nat.not_le.2 h5)
        · refine Nat.lt_of_le_of_lt h8 (Nat.lt_of_not_le fun h9 => ?_)
          have := (inRecovery_iff s.core.cc p.timeSent).2 ⟨r, h7, h9⟩
          rw [hp3] at this
          cases this
      · intro x hx
        rw [List.mem_filter] at hx
        obtain ⟨hx1, hx2⟩ := hx
        have hx2' := of_decide_eq_true hx2
        split at hx1
        · rename_i hlt
          rcases List.mem_cons.1 hx1 with hx1 | hx1
          · obtain ⟨h1, h2, _⟩ := hm.2 hlt
            subst hx1
            refine ⟨?_, hx2', h1⟩
            have h2' : (callTime (.base o)).isSome = true := h2
            cases hc : callTime (Call.base o) with
            | none => rw [hc] at h2'; cases h2'
            | some now => exact Nat.le_refl _
          · obtain ⟨h4, _, h6⟩ := ha x hx1
            exact ⟨Nat.le_trans h4 hT, hx2', hm.1 _ _ h4 h6⟩
        · obtain ⟨h4, _, h6⟩ := ha x hx1
          exact ⟨Nat.le_trans h4 hT, hx2', hm.1 _ _ h4 h6⟩
    | limited v =>
      refine ⟨fun h => absurd h (Nat.lt_irrefl _), ih _ _ _ ho.2 hs' ?_⟩
      intro x hx
      rw [if_neg (by exact Nat.lt_irrefl _), List.mem_filter] at hx
      exact ha x hx.1
    | pmtu n => exact absurd (hs _ List.mem_cons_self) (by simp [resizes])
    | peerMax n => exact absurd (hs _ List.mem_cons_self) (by simp [resizes])

/-- CUBIC: as long as the window has not grown back to what it was before a reduction, it
shrinks again only when a packet sent after that reduction is found lost (in calls that
report no spurious loss). -/
theorem once_partial (f : Curve φ) (scale : Bool → Nat → Nat) (q hf : Nat → Nat) (size pkts : Nat) (hy fix : Bool) (t0 r d : Nat) (calls : List Call)
    (ho : Ordered 0 calls) (hr : ∀ c ∈ calls, resizes c = false) :
    Once [] (trace (env f .cubic scale q hf) (Sys.new f size pkts hy fix t0 r d) calls) :=
  cubic_trace f scale q hf calls _ 0 [] ho hr (fun x hx => by cases hx)

/-! ### Concrete cases -/

open Verif.Props.C122 (flat with_ done pkt tx ack timer start rounds)

instance (m : Nat) : (since : Option Nat) → (l : List Event) → Decidable (Responds m since l)
  | _, [] => .isTrue trivial
  | since, ev :: l =>
    have := fun x => instDecidableResponds m x l
    inferInstanceAs (Decidable (if newer since ev.out = true then _ else _))

instance (m : Nat) : (since : Option Nat) → (l : List Event) → Decidable (Halves m since l)
  | _, [] => .isTrue trivial
  | since, ev :: l =>
    have := fun x => instDecidableHalves m x l
    inferInstanceAs (Decidable (if resizes ev.call = true then _ else if newer since ev.out = true then _ else _))

/-- The windows after each call, without repetition. -/
def windows (l : List Event) : List Nat := (l.map Event.after).eraseReps

-- Two losses of packets sent before the first reduction: one reduction. A later one: another.
def two : List Call :=
  (List.range 8).map (fun i => tx i 1200 i) ++ [ack [(0, 1), (2, 3), (4, 6)] 110, ack [(0, 1), (2, 3), (4, 8)] 111, timer 300] ++
  (List.range 6).map (fun i => tx (8 + i) 1200 (400 + i)) ++ [ack [(8, 9), (10, 14)] 510]

example : windows (trace (with_ .reno) (start 10) two) = [12000, 6000, 3000] := by decide +kernel
example : ((trace (with_ .reno) (start 10) two).map fun e => (e.out.lost.map Sent.pn)).filter (· ≠ []) = [[1], [3], [9]] := by decide +kernel
example : windows (trace (with_ .cubic) (start 10) two) = [12000, 8400, 5880] := by decide +kernel
example : Ordered 0 two ∧ ∀ c ∈ two, resizes c = false := by decide +kernel
example : Halves 1200 none (trace (with_ .reno) (start 10) two) := by decide +kernel
-- A controller that reduces for every loss does not satisfy it.
example : ¬ Halves 1200 none
    [⟨timer 1, ⟨.application, [], [⟨1, [], 0, none, none, 1200, true, true, true, false⟩], (0, 0, 0, 0)⟩, 12000, 6000⟩,
     ⟨timer 2, ⟨.application, [], [⟨2, [], 0, none, none, 1200, true, true, true, false⟩], (0, 0, 0, 0)⟩, 6000, 3000⟩] := by decide +kernel

/-- A reduction, a pause, and a burst of six packets, two of which are lost. -/
def burst : List Call :=
  (List.range 6).map (fun i => tx i 1200 i) ++ [ack [(0, 1), (2, 6)] 110] ++
  (List.range 6).map (fun i => tx (6 + i) 1200 210) ++ [ack [(6, 7), (8, 12)] 310]

example : windows (trace (with_ .cubic) (start 10) burst) = [12000, 8400] := by decide +kernel
example : windows (trace (with_ .reno) (start 10) burst) = [12000, 6000, 3000] := by decide +kernel
example : ((trace (with_ .cubic) (start 10) burst).map fun e => (e.out.lost.map fun p => (p.pn, p.timeSent))).filter (· ≠ []) =
    [[(1, 1000000)], [(7, 210000000)]] := by decide +kernel

/-- The full claim, that the window shrinks when a packet is lost that was sent after the
last reduction, is false for CUBIC: after a pause it moves the start of its recovery to the
time of the first packet sent, so that packets sent at that time count as sent before the
reduction, and their loss is ignored. -/
theorem claim_false : ¬ ∀ calls : List Call, Ordered 0 calls → (∀ c ∈ calls, resizes c = false) →
    Responds 1200 none (trace (with_ .cubic) (start 10) calls) := by
  intro h
  exact absurd (h burst (by decide +kernel) (by decide +kernel)) (by decide +kernel)

end Verif.Props.C123
