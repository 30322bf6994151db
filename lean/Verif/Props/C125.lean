import Verif.Props.C124

/-!
C125: the allowance of the congestion window.
-/

namespace Verif.Props.C125

open Verif.Rec Verif.Cong

variable {φ : Type}

/-- No packet is to be sent as a probe after a loss timeout (RFC 9002, 7.5). -/
def NoProbe (s : State (St φ)) : Prop := ∀ e, (s.get e).lossProbes = 0

theorem available_eq {s : State (St φ)} (h : NoProbe s) : available s = (s.cc.cwnd - s.flight.bytes) + s.cc.prr.sndCnt := by
  unfold available
  rw [if_neg]
  have h1 : s.initial.lossProbes = 0 := h .initial
  have h2 : s.handshake.lossProbes = 0 := h .handshake
  have h3 : s.application.lossProbes = 0 := h .application
  omega

/-! ### Reno does not use proportional rate reduction -/

theorem renoAck_prr (now : Nat) (r : Rtt) (s : St φ) (p : Acked) : (renoAck now r s p).prr = s.prr := by
  unfold renoAck
  split
  · rfl
  · split
    · rfl
    · split
      · exact (hyAck_frame _ p r.latest now).2.2.2.2.2.2.2.1
      · split <;> rfl

theorem renoFold_prr (now : Nat) (r : Rtt) : ∀ (l : List Acked) (s : St φ), (l.foldl (renoAck now r) s).prr = s.prr := by
  intro l
  induction l with
  | nil => intro s; rfl
  | cons p l ih => intro s; exact (ih _).trans (renoAck_prr now r s p)

theorem hySent_prr (s : St φ) (pn : Nat) : (s.hySent pn).prr = s.prr := by
  unfold St.hySent
  split <;> rfl

theorem onSent_snd (a : Algo) (s : St φ) (flight sent now pn : Nat) (inFlight : Bool) (h : s.prr.sndCnt = 0) :
    (onSent a s flight sent now pn inFlight).prr.sndCnt = 0 := by
  unfold onSent
  split
  · rw [hySent_prr]
    show (algoSent a { s with appLimited := decide (flight + sent < s.cwnd) } sent flight now).prr.sndCnt - sent = 0
    have : (algoSent a { s with appLimited := decide (flight + sent < s.cwnd) } sent flight now).prr = s.prr := by
      unfold algoSent
      split
      · rfl
      · unfold cubicSent
        split <;> rfl
    rw [this, h, Nat.zero_sub]
  · exact h

theorem reno_snd (f : Curve φ) {s : State (St φ)} {o : Op} {out : Out} {c : St φ} (hm : Move (ctl f .reno) s o out c)
    (h : s.cc.prr.sndCnt = 0) : c.prr.sndCnt = 0 := by
  have hl : ∀ x fl b now ps, (lossWith (ctl f .reno) x fl b now ps).prr = x.prr := by
    intro x fl b now ps
    rcases lossWith_cases f .reno x fl b now ps with ⟨he, _⟩ | ⟨hc, _⟩
    · rw [he]
    · exact (hc.reno rfl).2
  cases hm with
  | same _ => exact h
  | sent => exact onSent_snd .reno _ _ _ _ _ _ h
  | rolled => exact h
  | lost now _ _ bytes n _ =>
    show (lossWith (ctl f .reno) _ _ _ _ _).prr.sndCnt = 0
    rw [hl]; exact h
  | @acked e rs d st now sk out sp _ flight bytes n r ha _ =>
    have hsp : (if sp = true then (ctl f Algo.reno).rollback s.cc else s.cc) = s.cc := by split <;> rfl
    show (List.foldl (renoAck now r) _ out.acked).prr.sndCnt = 0
    rw [renoFold_prr]
    show (lossWith (ctl f .reno) _ _ _ _ _).prr.sndCnt = 0
    rw [hl, hsp]; exact h

theorem setSize_prr (s : Sys φ) (n : Nat) : (s.setSize n).core.cc.prr = s.core.cc.prr := by
  unfold Sys.setSize
  dsimp only
  split <;> rfl

theorem reno_run (f : Curve φ) (scale : Bool → Nat → Nat) (q hf : Nat → Nat) : ∀ (calls : List Call) (s : Sys φ), s.core.cc.prr.sndCnt = 0 →
    (s.run (env f .reno scale q hf) calls).core.cc.prr.sndCnt = 0 := by
  intro calls
  induction calls with
  | nil => intro s h; exact h
  | cons c calls ih =>
    intro s h
    refine ih (s.step (env f .reno scale q hf) c).1 ?_
    cases c with
    | base o => exact reno_snd f (step_move (env f .reno scale q hf) s.core o) h
    | limited v => exact h
    | pmtu n => exact (congrArg Prr.sndCnt (setSize_prr s n)).trans h
    | peerMax n => exact (congrArg Prr.sndCnt (setSize_prr s _)).trans h

theorem send_cwnd (f : Curve φ) (a : Algo) (scale : Bool → Nat → Nat) (q hf : Nat → Nat) (s : State (St φ)) (e : Epoch) (p : Pkt) (st : Status) (now : Nat) :
    (Rec.step (env f a scale q hf) s (.send e p st now)).1.cc.cwnd = s.cc.cwnd := by
  have h : ∀ (t : State (St φ)), (State.sentInFlight t (p.sent now) st now).cc = t.cc := by
    intro t
    unfold State.sentInFlight
    split <;> rfl
  show ((s.onSent (env f a scale q hf) e (p.sent now) st now).cc).cwnd = s.cc.cwnd
  unfold State.onSent
  dsimp only
  rw [Rec.set_cc, h, Rec.set_cc]
  exact (onSent_frame a _ _ _ _ _ _).1

/-- With nothing left to send by proportional rate reduction, a packet sent within the
allowance is within the window. -/
theorem obey (f : Curve φ) (a : Algo) (scale : Bool → Nat → Nat) (q hf : Nat → Nat) (s : State (St φ)) (hp : NoProbe s)
    (h0 : s.cc.prr.sndCnt = 0) (e : Epoch) (p : Pkt) (st : Status) (now : Nat) (hs : p.written ≤ available s) (hw : s.flight.bytes ≤ s.cc.cwnd) :
    (Rec.step (env f a scale q hf) s (.send e p st now)).1.flight.bytes ≤
      (Rec.step (env f a scale q hf) s (.send e p st now)).1.cc.cwnd := by
  rw [available_eq hp, h0, Nat.add_zero] at hs
  rw [send_cwnd]
  refine Nat.le_trans (Nat.le_of_eq (onSent_flight _ s e (p.sent now) st now).1) ?_
  unfold Pkt.sent
  dsimp only
  split
  · split <;> omega
  · omega

/-- Reno: when no probe is due, the allowance is what the window leaves above the bytes in
flight; a packet sent within the allowance does not take the bytes in flight above the
window. -/
theorem reno (f : Curve φ) (scale : Bool → Nat → Nat) (q hf : Nat → Nat) (size pkts : Nat) (hy fix : Bool) (t0 r d : Nat) (calls : List Call)
    (s : State (St φ)) (hs : ((Sys.new f size pkts hy fix t0 r d).run (env f .reno scale q hf) calls).core = s) (hp : NoProbe s) :
    available s = s.cc.cwnd - s.flight.bytes ∧
    ∀ (e : Epoch) (p : Pkt) (st : Status) (now : Nat), 0 < p.written → p.written ≤ available s →
      (Rec.step (env f .reno scale q hf) s (.send e p st now)).1.flight.bytes ≤
        (Rec.step (env f .reno scale q hf) s (.send e p st now)).1.cc.cwnd := by
  have h0 : s.cc.prr.sndCnt = 0 := by
    rw [← hs]
    exact reno_run f scale q hf calls _ rfl
  have h1 := available_eq hp
  rw [h0, Nat.add_zero] at h1
  refine ⟨h1, fun e p st now hw hle => obey f .reno scale q hf s hp h0 e p st now hle ?_⟩
  rw [h1] at hle
  omega

/-! ### CUBIC before the first loss -/

/-- What holds as long as there is no loss. -/
structure Fresh (s : St φ) : Prop where
  snd : s.prr.sndCnt = 0
  start : s.recStart = none
  thresh : s.ssthresh = usizeMax
  hy : s.hy.enabled = false

theorem fresh_hy {s : St φ} (h : Fresh s) (p : Acked) (rtt now : Nat) : Fresh (s.hyAck p rtt now) := by
  have : s.hyAck p rtt now = s := by
    unfold St.hyAck Hystart.onAcked
    rw [if_pos h.hy]
    rfl
  rw [this]; exact h

theorem fresh_ack (f : Curve φ) (flight now : Nat) (r : Rtt) (s : St φ) (p : Acked) (h : Fresh s)
    (hc : (cubicAck f flight now r s p).cwnd < usizeMax) : Fresh (cubicAck f flight now r s p) := by
  have hlt := Nat.lt_of_le_of_lt (cubicAck_grows f flight now r s p).cwnd hc
  have hu : (cubicUndo f s).1 = false := by
    unfold cubicUndo
    rw [if_neg (by rw [h.start]; simp)]
  unfold cubicAck
  rw [if_neg (by unfold St.inRecovery; rw [h.start]; simp)]
  split
  · exact h
  · rw [if_neg (by rw [hu]; simp), if_pos (by rw [h.thresh]; exact hlt)]
    unfold cubicSlow
    refine fresh_hy ?_ _ _ _
    split <;> exact ⟨h.snd, h.start, h.thresh, h.hy⟩

theorem fresh_acks (f : Curve φ) (flight now : Nat) (r : Rtt) : ∀ (l : List Acked) (s : St φ), Fresh s →
    (l.foldl (cubicAck f flight now r) s).cwnd < usizeMax → Fresh (l.foldl (cubicAck f flight now r) s) := by
  intro l
  induction l with
  | nil => intro s h _; exact h
  | cons p l ih =>
    intro s h hc
    refine ih _ (fresh_ack f flight now r s p h ?_) hc
    exact Nat.lt_of_le_of_lt (foldl_grows _ (cubicAck_grows f flight now r) l _).cwnd hc

theorem fresh_move (f : Curve φ) {s : State (St φ)} {o : Op} {out : Out} {c : St φ} (hm : Move (ctl f .cubic) s o out c)
    (h : Fresh s.cc) (hl : newest out.lost = none) (hp : s.cc.prior.cwnd = 0) (hc : c.cwnd < usizeMax) : Fresh c := by
  have hr : (ctl f .cubic).rollback s.cc = s.cc := by
    show (cubicRollback f s.cc).2 = s.cc
    unfold cubicRollback
    rw [hp]
    split
    · rfl
    · rw [if_pos (Nat.zero_le _)]
  cases hm with
  | same _ => exact h
  | @sent e p st now =>
    show Fresh (onSent .cubic s.cc s.flight.bytes (p.sent now).size now p.pn p.inFlight)
    refine ⟨onSent_snd _ _ _ _ _ _ _ h.snd, ?_, ?_, ?_⟩
    · unfold onSent
      split
      · have : ∀ (x : St φ) (pn : Nat), (x.hySent pn).recStart = x.recStart := by
          intro x pn; unfold St.hySent; split <;> rfl
        rw [this]
        show (cubicSent _ _ _ _ : St φ).recStart = none
        unfold cubicSent
        split
        · exact h.start
        · show St.shifted _ _ _ = none
          unfold St.shifted
          split
          · rename_i h1 _
            have h1' : s.cc.recStart = some _ := h1
            rw [h.start] at h1'
            cases h1'
          · exact h.start
      · exact h.start
    · rw [(onSent_frame _ _ _ _ _ _ _).2.2.2.2.2.1]
      exact h.thresh
    · unfold onSent
      split
      · unfold St.hySent
        rw [if_neg]
        · show (cubicSent _ _ _ _ : St φ).hy.enabled = false
          unfold cubicSent
          split <;> exact h.hy
        · intro h1
          have h2 : (cubicSent { s.cc with appLimited := _ } (p.sent now).size s.flight.bytes now : St φ).hy.enabled = true := h1.1
          have h3 : (cubicSent { s.cc with appLimited := decide (s.flight.bytes + (p.sent now).size < s.cc.cwnd) } (p.sent now).size s.flight.bytes now : St φ).hy.enabled = false := by
            unfold cubicSent
            split <;> exact h.hy
          rw [h3] at h2
          cases h2
      · exact h.hy
  | rolled => rw [hr]; exact h
  | lost now _ _ bytes n _ =>
    rw [hl]
    exact ⟨h.snd, h.start, h.thresh, h.hy⟩
  | @acked e rs d st now sk out sp _ flight bytes n r ha _ =>
    rw [hl] at hc ⊢
    have hx : (if sp = true then (ctl f Algo.cubic).rollback s.cc else s.cc) = s.cc := by
      split
      · exact hr
      · rfl
    rw [hx] at hc ⊢
    exact fresh_acks f flight now r out.acked _ ⟨h.snd, h.start, h.thresh, h.hy⟩ hc

theorem fresh_prior (f : Curve φ) {s : State (St φ)} {o : Op} {out : Out} {c : St φ} (hm : Move (ctl f .cubic) s o out c)
    (hl : newest out.lost = none) : c.prior = s.cc.prior := by
  cases hm with
  | same _ => rfl
  | @sent e p st now => exact (onSent_grows .cubic s.cc s.flight.bytes (p.sent now).size now p.pn p.inFlight).prior
  | rolled => exact (rollback_grows f .cubic s.cc).prior
  | lost now _ _ bytes n _ => rw [hl]; rfl
  | @acked e rs d st now sk out sp _ flight bytes n r ha _ =>
    rw [hl]
    refine (onAcked_grows f .cubic _ flight out.acked r now).prior.trans ?_
    show (if sp = true then (ctl f Algo.cubic).rollback s.cc else s.cc).prior = _
    split
    · exact (rollback_grows f .cubic s.cc).prior
    · rfl

theorem fresh_run (f : Curve φ) (scale : Bool → Nat → Nat) (q hf : Nat → Nat) : ∀ (calls : List Call) (s : Sys φ),
    Fresh s.core.cc → s.core.cc.prior.cwnd = 0 → (∀ ev ∈ trace (env f .cubic scale q hf) s calls, newest ev.out.lost = none ∧ ev.after < usizeMax) →
    Fresh (s.run (env f .cubic scale q hf) calls).core.cc := by
  intro calls
  induction calls with
  | nil => intro s h _ _; exact h
  | cons c calls ih =>
    intro s h hp hl
    obtain ⟨h1, h2⟩ := hl _ List.mem_cons_self
    have key := fun hf' hp' => ih (s.step (env f .cubic scale q hf) c).1 hf' hp' (fun ev he => hl ev (List.mem_cons_of_mem _ he))
    cases c with
    | base o =>
      exact key (fresh_move f (step_move (env f .cubic scale q hf) s.core o) h h1 hp h2)
        ((congrArg Prior.cwnd (fresh_prior f (step_move (env f .cubic scale q hf) s.core o) h1)).trans hp)
    | limited v => exact key ⟨h.snd, h.start, h.thresh, h.hy⟩ hp
    | pmtu n =>
      have hs : Fresh (s.setSize n).core.cc ∧ (s.setSize n).core.cc.prior.cwnd = 0 := by
        unfold Sys.setSize
        dsimp only
        split
        · exact ⟨⟨h.snd, h.start, h.thresh, h.hy⟩, hp⟩
        · exact ⟨h, hp⟩
      exact key hs.1 hs.2
    | peerMax n =>
      have hs : Fresh (s.setSize (Nat.min s.size n)).core.cc ∧ (s.setSize (Nat.min s.size n)).core.cc.prior.cwnd = 0 := by
        unfold Sys.setSize
        dsimp only
        split
        · exact ⟨⟨h.snd, h.start, h.thresh, h.hy⟩, hp⟩
        · exact ⟨h, hp⟩
      exact key hs.1 hs.2

/-- CUBIC without HyStart++: the same, as long as no packet has been lost. -/
theorem cubic_partial (f : Curve φ) (scale : Bool → Nat → Nat) (q hf : Nat → Nat) (size pkts : Nat) (fix : Bool) (t0 r d : Nat) (calls : List Call)
    (hl : ∀ ev ∈ trace (env f .cubic scale q hf) (Sys.new f size pkts false fix t0 r d) calls, newest ev.out.lost = none ∧ ev.after < usizeMax)
    (s : State (St φ)) (hs : ((Sys.new f size pkts false fix t0 r d).run (env f .cubic scale q hf) calls).core = s) (hp : NoProbe s) :
    available s = s.cc.cwnd - s.flight.bytes ∧
    ∀ (e : Epoch) (p : Pkt) (st : Status) (now : Nat), 0 < p.written → p.written ≤ available s →
      (Rec.step (env f .cubic scale q hf) s (.send e p st now)).1.flight.bytes ≤
        (Rec.step (env f .cubic scale q hf) s (.send e p st now)).1.cc.cwnd := by
  have h0 : s.cc.prr.sndCnt = 0 := by
    rw [← hs]
    exact (fresh_run f scale q hf calls _ ⟨rfl, rfl, rfl, rfl⟩ rfl hl).snd
  have h1 := available_eq hp
  rw [h0, Nat.add_zero] at h1
  refine ⟨h1, fun e p st now hw hle => obey f .cubic scale q hf s hp h0 e p st now hle ?_⟩
  rw [h1] at hle
  omega

/-! ### Concrete cases -/

open Verif.Props.C122 (flat with_ done pkt tx ack timer start rounds)
open Verif.Props.C124 (ten)

instance (s : State (St φ)) : Decidable (NoProbe s) :=
  decidable_of_iff (∀ e ∈ [Epoch.initial, .handshake, .application], (s.get e).lossProbes = 0)
    ⟨fun h e => h e (by cases e <;> simp), fun h e _ => h e⟩

def summary (a : Algo) (l : List Call) : Nat × Nat × Nat :=
  let s := ((start 10).run (with_ a) l).core
  (s.cc.cwnd, s.flight.bytes, available s)

example : summary .reno (ten 0 0) = (12000, 12000, 0) := by decide +kernel
example : summary .reno ((ten 0 0).take 4) = (12000, 4800, 7200) := by decide +kernel
example : summary .cubic ((ten 0 0).take 4) = (12000, 4800, 7200) := by decide +kernel
example : summary .reno (ten 0 0 ++ [ack [(0, 1), (2, 10)] 100]) = (6000, 0, 6000) := by decide +kernel
-- A probe is due: any number of bytes.
example : (summary .reno (ten 0 0 ++ [timer 2000])).2.2 = usizeMax ∧ ¬ NoProbe ((start 10).run (with_ .reno) (ten 0 0 ++ [timer 2000])).core := by
  decide +kernel

/-- Packet 1 is lost. -/
def loss : List Call := ten 0 0 ++ [ack [(0, 1), (2, 10)] 100]

/-- A packet is sent within the allowance. -/
def within (s : Sys Unit) : Call → Bool
  | .base (.send _ p _ _) => decide (p.written ≤ available s.core)
  | _ => true

/-- Every packet is within the allowance when it is sent. -/
def Obeys (en : Env (St Unit)) : Sys Unit → List Call → Bool
  | _, [] => true
  | s, c :: l => within s c && Obeys en (s.step en c).1 l

example : summary .cubic loss = (8400, 0, 15960) := by decide +kernel
/-- Then six packets, and a short one. -/
def more : List Call := (List.range 6).map (fun i => tx (10 + i) 1200 101) ++ [tx 16 180 101]

example : summary .cubic (loss ++ more) = (8400, 7380, 1200) := by decide +kernel

/-- The full claim, that a sender that keeps to the allowance keeps the bytes in flight
within the window when no probe is due, is false for CUBIC: in recovery the allowance of
proportional rate reduction is added to what the window leaves. -/
theorem claim_false : ¬ ∀ (calls : List Call) (e : Epoch) (p : Pkt) (now : Nat), Ordered 0 calls → Obeys (with_ .cubic) (start 10) calls = true →
    NoProbe ((start 10).run (with_ .cubic) calls).core → 0 < p.written → p.written ≤ available ((start 10).run (with_ .cubic) calls).core →
    ((start 10).run (with_ .cubic) calls).core.flight.bytes ≤ ((start 10).run (with_ .cubic) calls).core.cc.cwnd →
    (Rec.step (with_ .cubic) ((start 10).run (with_ .cubic) calls).core (.send e p done now)).1.flight.bytes ≤
      (Rec.step (with_ .cubic) ((start 10).run (with_ .cubic) calls).core (.send e p done now)).1.cc.cwnd := by
  intro h
  have := h (loss ++ more) .application (pkt 17 1200) 101000000
    (by decide +kernel) (by decide +kernel) (by decide +kernel) (by decide) (by decide +kernel) (by decide +kernel)
  revert this
  decide +kernel

end Verif.Props.C125
