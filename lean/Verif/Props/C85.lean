import Verif.Props.C46

/-!
C85. While ack-eliciting data is in flight the loss detection timer is armed, so that a
lost flight is always noticed.

The claim is false. `pto_time_and_space` compares optional times with `new_time < time`
(recovery.rs:494), where "none" is smaller than every time, and it looks at spaces with
any packet in flight, also if none of those is ack-eliciting. A padded 1-RTT packet that
carries only an ACK has no "time of the last ack-eliciting packet"; when it is sent the
probe time of the Handshake space is replaced by none, and the timer is cleared while the
client's last Handshake packet is in flight (`armed_false`). Nothing is then sent again
until the application or the peer does something.

When only ack-eliciting packets are in flight the claim holds at every call that computes
the timer, once the handshake is completed or while an Initial or Handshake packet is in
flight (`armed_partial`), calls that do not compute it leave it alone and do not add to
the bytes in flight (`kept`), and so it holds throughout after completion
(`always_armed_partial`).
-/

namespace Verif.Props.C85

open Verif.Rec
open Verif.Props.C46 (trivialEnv s0 data padded step_ledger strike enter recorded run_failed new_inv new_before)

variable {σ : Type}

/-- The status under which a call computes the timer, if it does. -/
def sets (o : Op) (out : Out) : Option Status :=
  match o with
  | .send _ p st _ => if p.inFlight = true then some st else none
  | .ack _ _ _ st _ _ => if out.acked = [] then none else some st
  | .timeout st _ => some st
  | .discard _ st _ => some st
  | _ => none

/-! ### The timer is that of the resulting state -/

theorem timerFor_sent (s : State σ) (e : Epoch) (l : List Sent) (st : Status) (now : Nat) :
    (s.set e { s.get e with sent := l }).timerFor st now = s.timerFor st now := by cases e <;> rfl

theorem timer_set (s : State σ) (e : Epoch) (x : Space) : (s.set e x).timer = s.timer := by cases e <;> rfl

theorem setTimer_timer (s : State σ) (st : Status) (now : Nat) :
    (s.setTimer st now).timer = (s.setTimer st now).timerFor st now := rfl

theorem sent_timer (en : Env σ) (s : State σ) (e : Epoch) (p : Sent) (st : Status) (now : Nat) (h : p.inFlight = true) :
    (s.onSent en e p st now).timer = (s.onSent en e p st now).timerFor st now := by
  unfold State.onSent
  dsimp only
  generalize (State.sentCounters en s p now).set e (((State.sentCounters en s p now).get e).onSent p now) = u
  have hu : u.sentInFlight p st now = State.setTimer { u with flight := u.flight.add p.size now } st now := by
    unfold State.sentInFlight; rw [if_pos h]
  rw [hu]
  unfold Space.push
  rw [timerFor_sent, timer_set]
  rfl

theorem step_timer (en : Env σ) (s : State σ) (o : Op) (st : Status) (h : sets o (step en s o).2 = some st)
    (hf : (step en s o).1.failed = false) : ∃ now, (step en s o).1.timer = (step en s o).1.timerFor st now := by
  cases o with
  | send e p st' now =>
    simp only [sets] at h
    split at h
    · rename_i hp
      cases h
      refine ⟨now, ?_⟩
      show (s.onSent en e (p.sent now) st now).timer = (s.onSent en e (p.sent now) st now).timerFor st now
      exact sent_timer en s e _ st now hp
    · cases h
  | ack e rs delay st' now skip =>
    have hf' : (s.onAck en e rs delay st' now skip).1.failed = false := hf
    have h' : sets (.ack e rs delay st' now skip) (s.onAck en e rs delay st' now skip).2 = some st := h
    refine ⟨now, ?_⟩
    show (s.onAck en e rs delay st' now skip).1.timer = (s.onAck en e rs delay st' now skip).1.timerFor st now
    rcases onAck_cases en s e rs delay st' now skip with ⟨_, he⟩ | ⟨hnf, hn, he⟩ | ⟨hnf, last, hl, he⟩
    · rw [he] at hf'; cases hf'
    · rw [he] at h'; simp [sets, Out.none] at h'
    · rw [he] at h' ⊢
      simp only [sets] at h'
      split at h'
      · cases h'
      · cases h'
        unfold State.ackTail
        dsimp only
        rw [timerFor_sent, timer_set]
        rfl
  | timeout st' now =>
    cases h
    refine ⟨now, ?_⟩
    show (s.onTimeout en st now).1.timer = (s.onTimeout en st now).1.timerFor st now
    unfold State.onTimeout
    split <;> rfl
  | discard e st' now => cases h; exact ⟨now, rfl⟩
  | pathChange e now => cases h
  | pingSent e => cases h
  | nextAcked e => cases h
  | nextLost e => cases h
  | ackDelay d => cases h

/-! ### A time is found -/

/-- Every space with a packet in flight knows when the last ack-eliciting one was sent. -/
def Timed (s : State σ) : Prop := ∀ e, (s.get e).inFlightCount ≠ 0 → (s.get e).lastEliciting.isSome = true

theorem ptoStep_some {s : State σ} (h : Timed s) (d : Nat) (acc : Option Nat × Epoch) (e : Epoch)
    (ha : acc.1.isSome = true ∨ (s.get e).inFlightCount ≠ 0) : (ptoStep s d acc e).1.isSome = true := by
  unfold ptoStep
  split
  · rename_i h0
    rcases ha with ha | ha
    · exact ha
    · exact absurd h0 ha
  · rename_i h0
    have := h e h0
    split
    · cases hx : (s.get e).lastEliciting with
      | none => rw [hx] at this; cases this
      | some t => simp
    · rename_i hn
      cases ha1 : acc.1 with
      | none => exact absurd (Or.inl (by rw [ha1]; rfl)) hn
      | some t => rfl

theorem timerFor_some {s : State σ} (h : Timed s) (st : Status) (now : Nat) (hb : 0 < s.flight.bytes)
    (hi : s.initial.inFlightCount ≠ 0 ∨ s.handshake.inFlightCount ≠ 0 ∨ (st.completed = true ∧ s.application.inFlightCount ≠ 0)) :
    (s.timerFor st now).isSome = true := by
  unfold State.timerFor
  split
  · assumption
  · rw [if_neg (by rintro ⟨h0, _⟩; omega)]
    unfold State.ptoTimeAndSpace
    dsimp only
    rw [if_neg (by omega)]
    split
    · rename_i hc
      rcases hi with hi | hi | hi
      · exact ptoStep_some h _ _ _ (Or.inl (ptoStep_some h _ _ _ (Or.inr hi)))
      · exact ptoStep_some h _ _ _ (Or.inr hi)
      · rw [hc] at hi; cases hi.1
    · rcases hi with hi | hi | hi
      · exact ptoStep_some h _ _ _ (Or.inl (ptoStep_some h _ _ _ (Or.inl (ptoStep_some h _ _ _ (Or.inr hi)))))
      · exact ptoStep_some h _ _ _ (Or.inl (ptoStep_some h _ _ _ (Or.inr hi)))
      · exact ptoStep_some h _ _ _ (Or.inr hi.2)

theorem weight_pos {l : List (Nat × Nat)} (h : 0 < weight l) : l ≠ [] := by rintro rfl; simp [weight] at h

theorem count_of_out {s : State σ} (h : StateInv s) (e : Epoch) (ho : outstanding (s.get e).sent ≠ []) : (s.get e).inFlightCount ≠ 0 := by
  rw [(h e).count]
  cases hx : outstanding (s.get e).sent with
  | nil => exact absurd hx ho
  | cons a l => simp; omega

/-- Bytes in flight belong to a packet of some space. -/
theorem some_space {s : State σ} (h : StateInv s) (hb : s.flight.bytes = total s) (hp : 0 < s.flight.bytes) :
    s.initial.inFlightCount ≠ 0 ∨ s.handshake.inFlightCount ≠ 0 ∨ s.application.inFlightCount ≠ 0 := by
  have hp : 0 < weight (outstanding s.initial.sent) + weight (outstanding s.handshake.sent) + weight (outstanding s.application.sent) := by
    rw [hb] at hp; exact hp
  by_cases h1 : 0 < weight (outstanding s.initial.sent)
  · exact Or.inl (count_of_out h .initial (weight_pos h1))
  · by_cases h2 : 0 < weight (outstanding s.handshake.sent)
    · exact Or.inr (Or.inl (count_of_out h .handshake (weight_pos h2)))
    · have h3 : 0 < weight (outstanding s.application.sent) := by omega
      exact Or.inr (Or.inr (count_of_out h .application (weight_pos h3)))

/-! ### The time of the last ack-eliciting packet -/

theorem acked_last (now rtt : Nat) (skip : Option Nat) (rs : List (Nat × Nat)) (x : Space) :
    (x.acked now rtt skip rs).2.2.lastEliciting = x.lastEliciting := by
  unfold Space.acked
  dsimp only
  split <;> rfl

theorem detectLost_last (en : Env σ) (s : State σ) (e e' : Epoch) (now : Nat) :
    ((s.detectLost en e now).2.get e').lastEliciting = (s.get e').lastEliciting := by
  cases e <;> cases e' <;> rfl

theorem ackTail_last (en : Env σ) (s : State σ) (e e' : Epoch) (a : AckAcc) (last : Acked) (delay : Nat) (st : Status) (now : Nat) :
    ((s.ackTail en e a last delay st now).1.get e').lastEliciting = (s.get e').lastEliciting := by
  cases e <;> cases e' <;> rfl

theorem onPto_last (s : State σ) (st : Status) (now : Nat) (e' : Epoch) :
    ((s.onPto st now).get e').lastEliciting = (s.get e').lastEliciting := by
  unfold State.onPto
  dsimp only
  cases s.ptoSpace st now <;> cases e' <;> rfl

/-- Once known it stays known, until the space is discarded. -/
theorem step_last (en : Env σ) (s : State σ) (o : Op) (e : Epoch) (h : (s.get e).lastEliciting.isSome = true)
    (hd : ∀ st now, o ≠ .discard e st now) : ((step en s o).1.get e).lastEliciting.isSome = true := by
  cases o with
  | send e' p st now =>
    show ((s.onSent en e' (p.sent now) st now).get e).lastEliciting.isSome = true
    rw [onSent_get]
    split
    · subst_vars
      show (if (p.sent now).inFlight = true ∧ (p.sent now).ackEliciting = true then some now else (s.get _).lastEliciting).isSome = true
      split
      · rfl
      · exact h
    · exact h
  | ack e' rs delay st now skip =>
    show ((s.onAck en e' rs delay st now skip).1.get e).lastEliciting.isSome = true
    have hset : ((s.set e' ((s.get e').acked now s.rtt.smoothed skip rs).2.2).get e).lastEliciting = (s.get e).lastEliciting := by
      rw [get_set]
      split
      · subst_vars; exact acked_last ..
      · rfl
    rcases onAck_cases en s e' rs delay st now skip with ⟨_, he⟩ | ⟨hnf, hn, he⟩ | ⟨hnf, last, hl, he⟩
    · rw [he]
      show ((s.set e' ((s.get e').acked now s.rtt.smoothed skip rs).2.2).get e).lastEliciting.isSome = true
      rw [hset]; exact h
    · rw [he, spurious_get, hset]; exact h
    · rw [he, ackTail_last, spurious_get, hset]; exact h
  | timeout st now =>
    show ((s.onTimeout en st now).1.get e).lastEliciting.isSome = true
    unfold State.onTimeout
    split
    · dsimp only; rw [setTimer_get, detectLost_last]; exact h
    · dsimp only; rw [onPto_last]; exact h
  | discard e' st now =>
    show ((s.onDiscard e' st now).get e).lastEliciting.isSome = true
    rw [onDiscard_get]
    split
    · subst_vars; exact absurd rfl (hd st now)
    · exact h
  | pathChange e' now =>
    show ((s.detectLost en e' now).2.get e).lastEliciting.isSome = true
    rw [detectLost_last]; exact h
  | pingSent e' => cases e <;> cases e' <;> exact h
  | nextAcked e' => cases e <;> cases e' <;> exact h
  | nextLost e' =>
    show ((s.set e' (s.get e').nextLost).get e).lastEliciting.isSome = true
    rw [get_set]
    split
    · subst_vars; unfold Space.nextLost; split <;> exact h
    · exact h
  | ackDelay d => cases e <;> exact h

/-- The outstanding packets of a space that knows no such time are none. -/
def Known (s : State σ) : Prop := ∀ e, outstanding (s.get e).sent ≠ [] → (s.get e).lastEliciting.isSome = true

theorem Known.timed {s : State σ} (h : Known s) (hi : StateInv s) : Timed s := by
  intro e hc
  apply h e
  intro h0
  apply hc
  rw [(hi e).count, h0]
  rfl

theorem step_known (en : Env σ) {s : State σ} {o : Op} (h : StateInv s) (hk : Known s)
    (hel : ∀ e p st now, o = .send e p st now → p.inFlight = true → p.ackEliciting = true)
    (hf : (step en s o).1.failed = false) : Known (step en s o).1 := by
  intro e ho
  rw [step_ledger en h (fun e => outstanding (s.get e).sent) (fun _ => rfl) hf e] at ho
  have ho' : enter recorded (fun e => outstanding (s.get e).sent) e o ≠ [] := by
    intro h0
    apply ho
    unfold strike
    rw [h0]
    split <;> rfl
  by_cases hs : (s.get e).lastEliciting.isSome = true
  · apply step_last en s o e hs
    rintro st now rfl
    simp [enter] at ho'
  · have hn : outstanding (s.get e).sent = [] := by
      cases hx : outstanding (s.get e).sent with
      | nil => rfl
      | cons a l => exact absurd (hk e (by rw [hx]; simp)) hs
    cases o with
    | send e' p st now =>
      simp only [enter, hn] at ho'
      split at ho'
      · rename_i hp
        obtain ⟨rfl, hp⟩ := hp
        show ((s.onSent en e' (p.sent now) st now).get e').lastEliciting.isSome = true
        rw [onSent_get, if_pos rfl]
        show (if (p.sent now).inFlight = true ∧ (p.sent now).ackEliciting = true then some now else (s.get e').lastEliciting).isSome = true
        rw [if_pos ⟨hp, hel e' p st now rfl hp⟩]
        rfl
      · exact absurd rfl ho'
    | ack e' rs delay st now skip => simp [enter, hn] at ho'
    | discard e' st now => simp [enter, hn] at ho'
    | timeout st now => exact absurd hn ho'
    | pathChange e' now => exact absurd hn ho'
    | pingSent e' => exact absurd hn ho'
    | nextAcked e' => exact absurd hn ho'
    | nextLost e' => exact absurd hn ho'
    | ackDelay d => exact absurd hn ho'

/-! ### Results -/

/-- All that is needed of the state. -/
structure Good (s : State σ) : Prop where
  inv : StateInv s
  known : Known s
  bytes : s.flight.bytes = total s

/-- Packets in flight are ack-eliciting. -/
def Eliciting (ops : List Op) : Prop := ∀ o ∈ ops, ∀ e p st now, o = Op.send e p st now → p.inFlight = true → p.ackEliciting = true

theorem new_good (t0 r d : Nat) (c : σ) : Good (State.new t0 r d c) :=
  ⟨new_inv t0 r d c, by intro e; cases e <;> (intro h; exact absurd rfl h), rfl⟩

theorem run_good (en : Env σ) : ∀ (os : List Op) (s : State σ), WellSent os → AllBefore s os → Eliciting os → Good s →
    (run en s os).1.failed = false → Good (run en s os).1
  | [], _, _, _, _, h, _ => h
  | o :: os, s, hw, hbf, hel, h, hf => by
    have hf1 : (step en s o).1.failed = false := by
      cases hx : (step en s o).1.failed with
      | false => rfl
      | true => have := run_failed en os _ hx; rw [show (run en s (o :: os)).1 = (run en (step en s o).1 os).1 from rfl, this] at hf; cases hf
    exact run_good en os (step en s o).1 hw.tail (step_before en hw hbf) (fun x hx => hel x (List.mem_cons_of_mem _ hx))
      ⟨step_inv en hw hbf h.inv, step_known en h.inv h.known (hel o List.mem_cons_self) hf1, step_bytes en h.inv h.bytes hf1⟩ hf

theorem run_snoc (en : Env σ) (o : Op) : ∀ (os : List Op) (s : State σ), (run en s (os ++ [o])).1 = (step en (run en s os).1 o).1
  | [], _ => rfl
  | x :: os, s => run_snoc en o os (step en s x).1

/-- If only ack-eliciting packets are in flight, then after every call that computes the
timer and leaves bytes in flight the timer is armed, if the handshake is completed or an
Initial or Handshake packet is in flight. Missing: padded packets that are not
ack-eliciting (`armed_false`); only 0-RTT packets in flight before completion. -/
theorem armed_partial (en : Env σ) (t0 r d : Nat) (c : σ) (ops : List Op) (o : Op) (st : Status)
    (hw : WellSent (ops ++ [o])) (hel : Eliciting (ops ++ [o]))
    (hf : (run en (State.new t0 r d c) (ops ++ [o])).1.failed = false)
    (hs : sets o (step en (run en (State.new t0 r d c) ops).1 o).2 = some st)
    (hb : 0 < (run en (State.new t0 r d c) (ops ++ [o])).1.flight.bytes)
    (hr : st.completed = true ∨ (run en (State.new t0 r d c) (ops ++ [o])).1.initial.inFlightCount ≠ 0 ∨
      (run en (State.new t0 r d c) (ops ++ [o])).1.handshake.inFlightCount ≠ 0) :
    (run en (State.new t0 r d c) (ops ++ [o])).1.timer.isSome = true := by
  have hg := run_good en _ _ hw (new_before t0 r d c _) hel (new_good t0 r d c) hf
  rw [run_snoc] at *
  obtain ⟨now, ht⟩ := step_timer en _ o st hs hf
  rw [ht]
  apply timerFor_some (hg.known.timed hg.inv) st now hb
  rcases hr with hr | hr | hr
  · rcases some_space hg.inv hg.bytes hb with h | h | h
    · exact Or.inl h
    · exact Or.inr (Or.inl h)
    · exact Or.inr (Or.inr ⟨hr, h⟩)
  · exact Or.inl hr
  · exact Or.inr (Or.inl hr)

theorem detectLost_timer (en : Env σ) (s : State σ) (e : Epoch) (now : Nat) : (s.detectLost en e now).2.timer = s.timer := by
  cases e <;> rfl

theorem bifLoss_le (b : Bif) (a : LossAcc) (now : Nat) : (bifLoss b a now).bytes ≤ b.bytes := by
  unfold bifLoss
  rw [Flight.sub_bytes]
  split
  · rw [Flight.sub_bytes]; omega
  · omega

/-- A call that does not compute the timer leaves it alone, and does not add bytes in
flight. -/
theorem kept (en : Env σ) (s : State σ) (o : Op) (h : sets o (step en s o).2 = none) (hf : (step en s o).1.failed = false) :
    (step en s o).1.timer = s.timer ∧ (step en s o).1.flight.bytes ≤ s.flight.bytes := by
  cases o with
  | send e p st now =>
    simp only [sets] at h
    split at h
    · cases h
    · rename_i hp
      show (s.onSent en e (p.sent now) st now).timer = s.timer ∧ (s.onSent en e (p.sent now) st now).flight.bytes ≤ s.flight.bytes
      unfold State.onSent State.sentInFlight
      dsimp only
      rw [if_neg (show ¬ (p.sent now).inFlight = true from hp)]
      cases e <;> exact ⟨rfl, Nat.le_refl _⟩
  | ack e rs delay st now skip =>
    have hf' : (s.onAck en e rs delay st now skip).1.failed = false := hf
    have h' : sets (.ack e rs delay st now skip) (s.onAck en e rs delay st now skip).2 = none := h
    show (s.onAck en e rs delay st now skip).1.timer = s.timer ∧ (s.onAck en e rs delay st now skip).1.flight.bytes ≤ s.flight.bytes
    rcases onAck_cases en s e rs delay st now skip with ⟨_, he⟩ | ⟨hnf, hn, he⟩ | ⟨hnf, last, hl, he⟩
    · rw [he] at hf'; cases hf'
    · rw [he]; cases e <;> exact ⟨rfl, Nat.le_refl _⟩
    · rw [he] at h'
      simp only [sets] at h'
      split at h'
      · rename_i hq
        have hq' : ((s.get e).acked now s.rtt.smoothed skip rs).2.1.newly = [] := hq
        rw [hq'] at hl; cases hl
      · cases h'
  | timeout st' now => cases h
  | discard e st' now => cases h
  | pathChange e now =>
    refine ⟨detectLost_timer en s e now, ?_⟩
    show (bifLoss s.flight _ now).bytes ≤ _
    exact bifLoss_le ..
  | pingSent e => cases e <;> exact ⟨rfl, Nat.le_refl _⟩
  | nextAcked e => cases e <;> exact ⟨rfl, Nat.le_refl _⟩
  | nextLost e => cases e <;> exact ⟨rfl, Nat.le_refl _⟩
  | ackDelay d => exact ⟨rfl, Nat.le_refl _⟩

/-- Every call is made after the handshake is completed. -/
def Completed (ops : List Op) : Prop := ∀ o ∈ ops, ∀ out st, sets o out = some st → st.completed = true

theorem always (en : Env σ) : ∀ (os : List Op) (s : State σ), WellSent os → AllBefore s os → Eliciting os → Completed os → Good s →
    (0 < s.flight.bytes → s.timer.isSome = true) → (run en s os).1.failed = false →
    0 < (run en s os).1.flight.bytes → (run en s os).1.timer.isSome = true
  | [], _, _, _, _, _, _, h, _ => h
  | o :: os, s, hw, hbf, hel, hc, hg, h, hf => by
    have hf1 : (step en s o).1.failed = false := by
      cases hx : (step en s o).1.failed with
      | false => rfl
      | true => have := run_failed en os _ hx; rw [show (run en s (o :: os)).1 = (run en (step en s o).1 os).1 from rfl, this] at hf; cases hf
    have hg1 : Good (step en s o).1 := ⟨step_inv en hw hbf hg.inv, step_known en hg.inv hg.known (hel o List.mem_cons_self) hf1,
      step_bytes en hg.inv hg.bytes hf1⟩
    refine always en os (step en s o).1 hw.tail (step_before en hw hbf) (fun x hx => hel x (List.mem_cons_of_mem _ hx))
      (fun x hx => hc x (List.mem_cons_of_mem _ hx)) hg1 ?_ hf
    intro hb
    cases hs : sets o (step en s o).2 with
    | none =>
      obtain ⟨h1, h2⟩ := kept en s o hs hf1
      rw [h1]; exact h (by omega)
    | some st =>
      obtain ⟨now, ht⟩ := step_timer en s o st hs hf1
      rw [ht]
      have hcc := hc o List.mem_cons_self _ st hs
      apply timerFor_some (hg1.known.timed hg1.inv) st now hb
      rcases some_space hg1.inv hg1.bytes hb with h | h | h
      · exact Or.inl h
      · exact Or.inr (Or.inl h)
      · exact Or.inr (Or.inr ⟨hcc, h⟩)

/-- After completion of the handshake the timer is armed whenever bytes are in flight, at
all times, if only ack-eliciting packets are in flight. -/
theorem always_armed_partial (en : Env σ) (t0 r d : Nat) (c : σ) (ops : List Op) (hw : WellSent ops) (hel : Eliciting ops)
    (hc : Completed ops) (hf : (run en (State.new t0 r d c) ops).1.failed = false)
    (hb : 0 < (run en (State.new t0 r d c) ops).1.flight.bytes) : (run en (State.new t0 r d c) ops).1.timer.isSome = true :=
  always en ops _ hw (new_before t0 r d c ops) hel hc (new_good t0 r d c) (fun h => absurd h (by simp [State.new])) hf hb

/-! ### Witnesses -/

/-- A client has completed the handshake and sent its last Handshake packet; the datagram
also has a padded 1-RTT packet with an ACK. The Handshake packet is in flight and there is
no timer. -/
theorem armed_false : ∃ ops : List Op, WellSent ops ∧ (run trivialEnv s0 ops).1.failed = false ∧
    0 < (run trivialEnv s0 ops).1.flight.bytes ∧ (run trivialEnv s0 ops).1.handshake.inFlightCount = 1 ∧
    (run trivialEnv s0 ops).1.timer = none := by
  refine ⟨[.send .handshake (data 1) ⟨true, false, true⟩ 1000, .send .application padded ⟨true, false, true⟩ 1000], ⟨?_, ?_⟩,
    by decide +kernel, by decide +kernel, by decide +kernel, by decide +kernel⟩
  · intro e; cases e <;> simp [sends]
  · intro e p hp; cases e <;> simp [sends] at hp <;> subst hp <;> decide

/-- Before completion a client that has only 0-RTT data in flight has no timer either. -/
example : (run trivialEnv s0 [.send .application (data 1) ⟨false, false, false⟩ 1000]).1.timer = none := by decide +kernel

/-- An ordinary flight is armed; once it is acknowledged the timer is cleared. -/
example :
    let ops := [Op.send .application (data 1) ⟨true, true, true⟩ 1000, .send .application (data 2) ⟨true, true, true⟩ 2000]
    ((run trivialEnv s0 ops).1.timer, (run trivialEnv s0 (ops ++ [.ack .application [(1, 3)] 0 ⟨true, true, true⟩ 9000 none])).1.timer) =
    (some 1024002000, none) := by decide +kernel

end Verif.Props.C85
