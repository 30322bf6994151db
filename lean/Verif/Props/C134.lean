import Verif.Props.C133
import Verif.Props.C48
import Verif.Props.C86

/-!
C134. The timer of the loss recovery used with BBR: it is armed while data is in flight,
uses the earliest pending loss time and otherwise the probe timeout of RFC 9002, doubled for
every probe timeout since the last progress.

* `timer_exact`: after a call that computes it, the timer is a function of the resulting
  state and the status of the connection.
* `armed_partial`, `always_armed_partial`: armed while bytes are in flight, when all packets
  in flight are ack-eliciting. False in general (`armed_false`).
* `earliest_partial`: the earliest pending loss time, when no space after a pending one is
  without; false in general (`earliest_false`).
* `probe_time`, `backoff`, `count`, `probes`: the probe timeout.
* `pathChange_false`: losses found at a change of path may leave a loss time pending without
  a timer for it.
-/

namespace Verif.Props.C134

open Verif.GRec
open Verif.Rec (Epoch Status Rtt Bif lastOf granularity maxPtoProbes pow2 optLt idleSpace)
open Verif.Props.C130 (quietEnv s0 done data padded)
open Verif.Props.C48 (found found_least)
open Verif.Props.C86 (period Least pow2_eq)

variable {σ : Type}

/-- The status and the time with which a call computes the timer, if it does. -/
def sets (o : Op) (out : Out) : Option Status :=
  match o with
  | .send _ p st _ => if p.inFlight = true then some st else none
  | .ack _ _ _ st _ _ => if out.acked = [] then none else some st
  | .timeout st _ => some st
  | .discard _ st _ => some st
  | _ => none

/-! ### The timer is that of the resulting state -/

theorem timer_exact (en : Env σ) (s : State σ) (o : Op) (st : Status) (h : sets o (step en s o).2 = some st)
    (hf : (step en s o).1.failed = false) : ∃ now, (step en s o).1.timer = (step en s o).1.timerFor st now := by
  cases o with
  | send e p st' now =>
    simp only [sets] at h
    split at h
    · next hp =>
      cases h
      refine ⟨en.cc.sendTime s.cc now, ?_⟩
      show (s.onSent en e p st now).timer = (s.onSent en e p st now).timerFor st (en.cc.sendTime s.cc now)
      unfold State.onSent State.sentInFlight
      dsimp only
      rw [if_pos (show (p.info (en.cc.sendTime s.cc now)).inFlight = true from hp)]
      rfl
    · cases h
  | ack e rs delay st' now skip =>
    have hf' : (s.onAck en e rs delay st' now skip).1.failed = false := hf
    have h' : sets (.ack e rs delay st' now skip) (s.onAck en e rs delay st' now skip).2 = some st := h
    refine ⟨now, ?_⟩
    show (s.onAck en e rs delay st' now skip).1.timer = (s.onAck en e rs delay st' now skip).1.timerFor st now
    rcases onAck_cases en s e rs delay st' now skip with ⟨_, he⟩ | ⟨hnf, hn, he⟩ | ⟨hnf, last, hl, he⟩
    · rw [he] at hf'; cases hf'
    · rw [he] at h'; simp [sets] at h'
    · rw [he] at h' ⊢
      simp only [sets] at h'
      split at h'
      · cases h'
      · cases h'
        unfold State.ackTail
        rfl
  | timeout st' now =>
    cases h
    refine ⟨now, ?_⟩
    show (s.onTimeout en st now).1.timer = (s.onTimeout en st now).1.timerFor st now
    unfold State.onTimeout
    split <;> rfl
  | discard e st' now => cases h; exact ⟨now, rfl⟩
  | pathChange e now => cases h
  | pingSent e => cases h
  | nextAcked e => cases h
  | nextLost e => cases h
  | ackDelay d => cases h

/-! ### A time is found -/

/-- Every space with a packet in flight knows when the last ack-eliciting one was sent. -/
def Timed (s : State σ) : Prop := ∀ e, (s.get e).inFlightCount ≠ 0 → (s.get e).lastEliciting.isSome = true

theorem ptoStep_some {s : State σ} (h : Timed s) (d : Nat) (acc : Option Nat × Epoch) (e : Epoch)
    (ha : acc.1.isSome = true ∨ (s.get e).inFlightCount ≠ 0) : (ptoStep s d acc e).1.isSome = true := by
  unfold ptoStep
  split
  · rename_i h0
    rcases ha with ha | ha
    · exact ha
    · exact absurd h0 ha
  · rename_i h0
    have := h e h0
    split
    · cases hx : (s.get e).lastEliciting with
      | none => rw [hx] at this; cases this
      | some t => simp
    · rename_i hn
      cases ha1 : acc.1 with
      | none => exact absurd (Or.inl (by rw [ha1]; rfl)) hn
      | some t => rfl

theorem timerFor_some {s : State σ} (h : Timed s) (st : Status) (now : Nat) (hb : 0 < s.flight.bytes)
    (hi : s.initial.inFlightCount ≠ 0 ∨ s.handshake.inFlightCount ≠ 0 ∨ (st.completed = true ∧ s.application.inFlightCount ≠ 0)) :
    (s.timerFor st now).isSome = true := by
  unfold State.timerFor
  split
  · assumption
  · rw [if_neg (by rintro ⟨h0, _⟩; omega)]
    unfold State.ptoTimeAndSpace
    dsimp only
    rw [if_neg (by omega)]
    split
    · rename_i hc
      rcases hi with hi | hi | hi
      · exact ptoStep_some h _ _ _ (Or.inl (ptoStep_some h _ _ _ (Or.inr hi)))
      · exact ptoStep_some h _ _ _ (Or.inr hi)
      · rw [hc] at hi; cases hi.1
    · rcases hi with hi | hi | hi
      · exact ptoStep_some h _ _ _ (Or.inl (ptoStep_some h _ _ _ (Or.inl (ptoStep_some h _ _ _ (Or.inr hi)))))
      · exact ptoStep_some h _ _ _ (Or.inl (ptoStep_some h _ _ _ (Or.inr hi)))
      · exact ptoStep_some h _ _ _ (Or.inr hi.2)

theorem cnt_nonneg (l : List (Nat × Info)) : 0 ≤ cnt l := Int.natCast_nonneg _

theorem wt_pos : ∀ {l : List (Nat × Info)}, 0 < wt l → cnt l ≠ 0
  | [], h => absurd h (by rw [wt_nil]; omega)
  | x :: l, h => by
    rw [wt_cons] at h
    rw [cnt_cons]
    have h0 := cnt_nonneg l
    split
    · omega
    · next hx =>
      rw [if_neg hx] at h
      have := wt_pos (l := l) (by omega)
      omega

/-- Bytes in flight belong to a packet of some space. -/
theorem some_space {s : State σ} (h : Inv s) (hb : s.flight.bytes = total s) (hp : 0 < s.flight.bytes) :
    s.initial.inFlightCount ≠ 0 ∨ s.handshake.inFlightCount ≠ 0 ∨ s.application.inFlightCount ≠ 0 := by
  have hc : ∀ e, 0 < wt (s.get e).live → (s.get e).inFlightCount ≠ 0 := by
    intro e he
    rw [(h e).count]
    have := wt_pos he
    omega
  rw [hb] at hp
  unfold total at hp
  by_cases h1 : 0 < wt (s.get .initial).live
  · exact Or.inl (hc .initial h1)
  · by_cases h2 : 0 < wt (s.get .handshake).live
    · exact Or.inr (Or.inl (hc .handshake h2))
    · exact Or.inr (Or.inr (hc .application (by omega)))

/-! ### The time of the last ack-eliciting packet -/

theorem acked_last (skip : Option Nat) (rs : List (Nat × Nat)) (x : Space) : (x.acked skip rs).2.2.lastEliciting = x.lastEliciting := by
  unfold Space.acked
  dsimp only
  split <;> rfl

theorem detectLost_last (en : Env σ) (s : State σ) (e e' : Epoch) (now : Nat) :
    ((s.detectLost en e now).2.get e').lastEliciting = (s.get e').lastEliciting := by
  rw [(detectLost_spec en s e now).2.1]
  split
  · next h => subst h; rfl
  · rfl

/-- Once known it stays known, until the space is discarded. -/
theorem step_last (en : Env σ) (s : State σ) (o : Op) (e : Epoch) (h : (s.get e).lastEliciting.isSome = true)
    (hd : ∀ st now, o ≠ .discard e st now) : ((step en s o).1.get e).lastEliciting.isSome = true := by
  have hset : ∀ (e' : Epoch) (x : Space), x.lastEliciting = (s.get e').lastEliciting → ((s.set e' x).get e).lastEliciting.isSome = true := by
    intro e' x hx
    by_cases he : e = e'
    · subst he; rw [get_set_same, hx]; exact h
    · rw [get_set_other _ _ he]; exact h
  cases o with
  | send e' p st now =>
    show ((s.onSent en e' p st now).get e).lastEliciting.isSome = true
    rw [onSent_get]
    split
    · next he =>
      subst he
      unfold Space.onSent
      dsimp only
      split
      · rfl
      · exact h
    · exact h
  | ack e' rs delay st now skip =>
    show ((s.onAck en e' rs delay st now skip).1.get e).lastEliciting.isSome = true
    have h1 := hset e' ((s.get e').acked skip rs).2.2 (acked_last ..)
    rcases onAck_cases en s e' rs delay st now skip with ⟨_, he⟩ | ⟨hnf, hn, he⟩ | ⟨hnf, last, hl, he⟩
    · rw [he]
      rw [show (State.get { s.set e' ((s.get e').acked skip rs).2.2 with failed := true } e) = (s.set e' ((s.get e').acked skip rs).2.2).get e from
        get_congr rfl rfl rfl e]
      exact h1
    · rw [he]; dsimp only; rw [spurious_get]; exact h1
    · obtain ⟨t, ht⟩ : ∃ t, t = ackState en s e' rs delay st now skip last := ⟨_, rfl⟩
      obtain ⟨g1, -⟩ := ackTail_spec en s e' rs delay st now skip last ht he
      rw [g1, detectLost_last, ht, ackState_get]
      split
      · next hee => subst hee; dsimp only; rw [acked_last]; exact h
      · exact h
  | timeout st now =>
    show ((s.onTimeout en st now).1.get e).lastEliciting.isSome = true
    unfold State.onTimeout
    split
    · dsimp only
      rw [setTimer_get]
      have : ∀ (u : State σ) (n : Nat), State.get { u with lostCount := n } e = u.get e := fun u n => get_congr rfl rfl rfl e
      rw [this, tell_get, detectLost_last]; exact h
    · dsimp only
      rw [(onPto_spec en s st now).1]
      split <;> exact h
  | discard e' st now =>
    show ((s.onDiscard en e' st now).1.get e).lastEliciting.isSome = true
    rw [(onDiscard_spec en s e' st now).1]
    split
    · next he => subst he; exact absurd rfl (hd st now)
    · exact h
  | pathChange e' now =>
    show ((s.detectLost en e' now).2.get e).lastEliciting.isSome = true
    rw [detectLost_last]; exact h
  | pingSent e' => exact hset e' _ rfl
  | nextAcked e' => exact hset e' _ (by unfold Space.nextAcked; split <;> rfl)
  | nextLost e' => exact hset e' _ (by unfold Space.nextLost; split <;> rfl)
  | ackDelay d => rw [show (step en s (.ackDelay d)).1.get e = s.get e from get_congr rfl rfl rfl e]; exact h

/-- A packet sent in flight is ack-eliciting. -/
def Elicits : Op → Prop
  | .send _ p _ _ => p.inFlight = true → p.ackEliciting = true
  | _ => True

theorem cnt_mem : ∀ {l : List (Nat × Info)}, cnt l ≠ 0 → ∃ x ∈ l, x.2.inFlight = true
  | [], h => absurd rfl h
  | x :: l, h => by
    rw [cnt_cons] at h
    by_cases hx : x.2.inFlight = true
    · exact ⟨x, List.mem_cons_self .., hx⟩
    · rw [if_neg hx] at h
      obtain ⟨y, hy, hi⟩ := cnt_mem (l := l) (by omega)
      exact ⟨y, List.mem_cons_of_mem _ hy, hi⟩

theorem mem_cnt {l : List (Nat × Info)} {x : Nat × Info} (h : x ∈ l) (hx : x.2.inFlight = true) : cnt l ≠ 0 := by
  obtain ⟨a, b, rfl⟩ := List.append_of_mem h
  rw [cnt_append, cnt_cons, if_pos hx]
  have h1 := cnt_nonneg a
  have h2 := cnt_nonneg b
  omega

theorem step_timed (en : Env σ) {s : State σ} {o : Op} (hi : Inv s) (ht : Timed s) (hfr : Fresh s o) (hel : Elicits o) :
    Timed (step en s o).1 := by
  intro e hc
  have hf := step_facts en hi o hfr
  rw [(hf.inv e).count] at hc
  obtain ⟨x, hx, hif⟩ := cnt_mem (l := ((step en s o).1.get e).live) (by omega)
  have hm := (hf.moved e).symm.subset (List.mem_append_left _ hx)
  rcases List.mem_append.1 hm with hm | hm
  · have hk := ht e (by rw [(hi e).count]; have := mem_cnt hm hif; omega)
    apply step_last en s o e hk
    intro st now ho
    subst ho
    rw [show (step en s (.discard e st now)).1.get e = (s.get e).discard from by
      show (s.onDiscard en e st now).1.get e = _; rw [(onDiscard_spec en s e st now).1, if_pos rfl]] at hx
    exact nomatch hx
  · obtain ⟨p, st, now, rfl, hxe⟩ := step_sent en s o e x hm
    show ((s.onSent en e p st now).get e).lastEliciting.isSome = true
    rw [onSent_get, if_pos rfl]
    unfold Space.onSent
    dsimp only
    have : x.2.inFlight = p.inFlight := by
      have : x = (p.pn, p.info (en.cc.sendTime s.cc now)) := by
        have hm' : x ∈ (if e = e then [(p.pn, p.info (en.cc.sendTime s.cc now))] else []) := hm
        rw [if_pos rfl] at hm'
        simpa using hm'
      rw [this]; rfl
    rw [if_pos (show (p.info (en.cc.sendTime s.cc now)).ackEliciting = true from hel (this ▸ hif))]
    rfl

/-! ### Armed -/

/-- All that is needed of the state. -/
structure Good (s : State σ) : Prop where
  inv : Inv s
  timed : Timed s
  bytes : s.flight.bytes = total s

theorem new_good (t0 r d : Nat) (relaxed : Bool) (c : σ) : Good (State.new t0 r d relaxed c) :=
  ⟨new_inv t0 r d relaxed c, by intro e; cases e <;> (intro h; exact absurd rfl h), rfl⟩

theorem step_good (en : Env σ) {s : State σ} {o : Op} (h : Good s) (hfr : Fresh s o) (hel : Elicits o) (hf : (step en s o).1.failed = false) :
    Good (step en s o).1 :=
  ⟨(step_facts en h.inv o hfr).inv, step_timed en h.inv h.timed hfr hel, (step_facts en h.inv o hfr).bytes hf h.bytes⟩

theorem first_ok (en : Env σ) {s : State σ} {o : Op} {os : List Op} (hi : Inv s) (ha : Ascending (o :: os)) (hb : Below s (o :: os))
    (hf : (run en s (o :: os)).1.failed = false) : (step en s o).1.failed = false := by
  have h1 := step_facts en hi o hb.fresh
  cases hx : (step en s o).1.failed with
  | false => rfl
  | true =>
    have := (run_facts en os _ h1.inv ha.tail (hb.step en ha h1)).2.2.2 hx
    rw [show (run en s (o :: os)).1 = (run en (step en s o).1 os).1 from rfl, this] at hf
    cases hf

theorem run_good (en : Env σ) : ∀ (os : List Op) (s : State σ), Ascending os → Below s os → (∀ o ∈ os, Elicits o) → Good s →
    (run en s os).1.failed = false → Good (run en s os).1
  | [], _, _, _, _, h, _ => h
  | o :: os, s, ha, hb, hel, h, hf =>
    run_good en os (step en s o).1 ha.tail (hb.step en ha (step_facts en h.inv o hb.fresh)) (fun x hx => hel x (List.mem_cons_of_mem _ hx))
      (step_good en h hb.fresh (hel o (List.mem_cons_self ..)) (first_ok en h.inv ha hb hf)) hf

theorem armed_of {s : State σ} (h : Good s) (st : Status) (now : Nat) (hb : 0 < s.flight.bytes)
    (hr : st.completed = true ∨ s.initial.inFlightCount ≠ 0 ∨ s.handshake.inFlightCount ≠ 0) : (s.timerFor st now).isSome = true := by
  apply timerFor_some h.timed st now hb
  rcases hr with hr | hr | hr
  · rcases some_space h.inv h.bytes hb with h | h | h
    · exact Or.inl h
    · exact Or.inr (Or.inl h)
    · exact Or.inr (Or.inr ⟨hr, h⟩)
  · exact Or.inl hr
  · exact Or.inr (Or.inl hr)

/-- **C134.** After every call that computes the timer and leaves bytes in flight the timer
is armed, if the handshake is completed or an Initial or Handshake packet is in flight, and
all packets in flight are ack-eliciting. Missing: padded packets that are not
(`armed_false`); only 0-RTT packets in flight before completion. -/
theorem armed_partial (en : Env σ) (t0 r d : Nat) (relaxed : Bool) (c : σ) (os : List Op) (o : Op) (ha : Ascending (os ++ [o]))
    (hel : ∀ x ∈ os ++ [o], Elicits x) {s s' : State σ} {out : Out} (hs : s = (run en (State.new t0 r d relaxed c) os).1)
    (hstep : (s', out) = step en s o) (hf : s'.failed = false) (st : Status) (hset : sets o out = some st) (hb : 0 < s'.flight.bytes)
    (hr : st.completed = true ∨ s'.initial.inFlightCount ≠ 0 ∨ s'.handshake.inFlightCount ≠ 0) : s'.timer.isSome = true := by
  have h1 : s' = (step en s o).1 := congrArg Prod.fst hstep
  have h2 : out = (step en s o).2 := congrArg Prod.snd hstep
  have happ := run_append en os [o] (State.new t0 r d relaxed c)
  have hs' : (run en (State.new t0 r d relaxed c) (os ++ [o])).1 = s' := by rw [happ.1, ← hs, h1]; rfl
  have hg := run_good en (os ++ [o]) _ ha (new_below t0 r d relaxed c _) hel (new_good t0 r d relaxed c) (by rw [hs']; exact hf)
  rw [hs'] at hg
  obtain ⟨now, ht⟩ := timer_exact en s o st (by rw [← h2]; exact hset) (by rw [← h1]; exact hf)
  rw [← h1] at ht
  rw [ht]
  exact armed_of hg st now hb hr

theorem detectLost_timer (en : Env σ) (s : State σ) (e : Epoch) (now : Nat) : (s.detectLost en e now).2.timer = s.timer := by
  unfold State.detectLost
  dsimp only
  have key : ∀ (l : List Nat) (u : State σ), (State.neuter en u l).timer = u.timer := by
    intro l
    induction l with
    | nil => intro u; rfl
    | cons n l ih => intro u; exact ih _
  rw [key]
  cases e <;> rfl

/-- A call that does not compute the timer leaves it alone, and does not add bytes in
flight. -/
theorem kept (en : Env σ) (s : State σ) (o : Op) (h : sets o (step en s o).2 = none) (hf : (step en s o).1.failed = false) :
    (step en s o).1.timer = s.timer ∧ (step en s o).1.flight.bytes ≤ s.flight.bytes := by
  cases o with
  | send e p st now =>
    simp only [sets] at h
    split at h
    · cases h
    · rename_i hp
      show (s.onSent en e p st now).timer = s.timer ∧ (s.onSent en e p st now).flight.bytes ≤ s.flight.bytes
      unfold State.onSent State.sentInFlight
      dsimp only
      rw [if_neg (show ¬ (p.info (en.cc.sendTime s.cc now)).inFlight = true from hp)]
      cases e <;> exact ⟨rfl, Nat.le_refl _⟩
  | ack e rs delay st now skip =>
    have hf' : (s.onAck en e rs delay st now skip).1.failed = false := hf
    have h' : sets (.ack e rs delay st now skip) (s.onAck en e rs delay st now skip).2 = none := h
    show (s.onAck en e rs delay st now skip).1.timer = s.timer ∧ (s.onAck en e rs delay st now skip).1.flight.bytes ≤ s.flight.bytes
    rcases onAck_cases en s e rs delay st now skip with ⟨_, he⟩ | ⟨hnf, hn, he⟩ | ⟨hnf, last, hl, he⟩
    · rw [he] at hf'; cases hf'
    · rw [he]; cases e <;> exact ⟨rfl, Nat.le_refl _⟩
    · obtain ⟨t, ht⟩ : ∃ t, t = ackState en s e rs delay st now skip last := ⟨_, rfl⟩
      obtain ⟨-, -, -, -, -, g6, -⟩ := ackTail_spec en s e rs delay st now skip last ht he
      simp only [sets] at h'
      split at h'
      · next hq => rw [g6] at hq; rw [hq] at hl; cases hl
      · cases h'
  | timeout st' now => cases h
  | discard e st' now => cases h
  | pathChange e now =>
    refine ⟨detectLost_timer en s e now, ?_⟩
    show (s.detectLost en e now).2.flight.bytes ≤ _
    rw [(detectLost_spec en s e now).2.2.1, sub_bytes]
    omega
  | pingSent e => cases e <;> exact ⟨rfl, Nat.le_refl _⟩
  | nextAcked e => cases e <;> exact ⟨rfl, Nat.le_refl _⟩
  | nextLost e => cases e <;> exact ⟨rfl, Nat.le_refl _⟩
  | ackDelay d => exact ⟨rfl, Nat.le_refl _⟩

/-- Every call is made after the handshake is completed. -/
def Completed (os : List Op) : Prop := ∀ o ∈ os, ∀ out st, sets o out = some st → st.completed = true

theorem always (en : Env σ) : ∀ (os : List Op) (s : State σ), Ascending os → Below s os → (∀ o ∈ os, Elicits o) → Completed os → Good s →
    (0 < s.flight.bytes → s.timer.isSome = true) → (run en s os).1.failed = false →
    0 < (run en s os).1.flight.bytes → (run en s os).1.timer.isSome = true
  | [], _, _, _, _, _, _, h, _ => h
  | o :: os, s, ha, hb, hel, hc, hg, h, hf => by
    have hf1 := first_ok en hg.inv ha hb hf
    have hg1 := step_good en hg hb.fresh (hel o (List.mem_cons_self ..)) hf1
    refine always en os (step en s o).1 ha.tail (hb.step en ha (step_facts en hg.inv o hb.fresh)) (fun x hx => hel x (List.mem_cons_of_mem _ hx))
      (fun x hx => hc x (List.mem_cons_of_mem _ hx)) hg1 ?_ hf
    intro hb
    cases hs : sets o (step en s o).2 with
    | none =>
      obtain ⟨h1, h2⟩ := kept en s o hs hf1
      rw [h1]; exact h (by omega)
    | some st =>
      obtain ⟨now, ht⟩ := timer_exact en s o st hs hf1
      rw [ht]
      exact armed_of hg1 st now hb (Or.inl (hc o (List.mem_cons_self ..) _ st hs))

/-- **C134.** After completion of the handshake the timer is armed whenever bytes are in
flight, if only ack-eliciting packets are in flight. -/
theorem always_armed_partial (en : Env σ) (t0 r d : Nat) (relaxed : Bool) (c : σ) (os : List Op) (ha : Ascending os) (hel : ∀ o ∈ os, Elicits o)
    (hc : Completed os) (hf : (run en (State.new t0 r d relaxed c) os).1.failed = false)
    (hb : 0 < (run en (State.new t0 r d relaxed c) os).1.flight.bytes) : (run en (State.new t0 r d relaxed c) os).1.timer.isSome = true :=
  always en os _ ha (new_below t0 r d relaxed c os) hel hc (new_good t0 r d relaxed c) (fun h => absurd h (by simp [State.new])) hf hb

/-! ### Pending loss times -/

/-- The pending loss times. -/
def pending (s : State σ) : List Nat := s.initial.lossTime.toList ++ s.handshake.lossTime.toList ++ s.application.lossTime.toList

/-- What is specified: the least pending time. -/
def Earliest (s : State σ) (t : Nat) : Prop := t ∈ pending s ∧ ∀ u ∈ pending s, t ≤ u

theorem loss_exact (s : State σ) : s.lossTimeAndSpace.1 = found s.initial.lossTime s.handshake.lossTime s.application.lossTime := by
  unfold State.lossTimeAndSpace lossStep
  simp only [State.get]
  obtain ⟨i, hi⟩ : ∃ i, s.initial.lossTime = i := ⟨_, rfl⟩
  obtain ⟨h, hh⟩ : ∃ h, s.handshake.lossTime = h := ⟨_, rfl⟩
  obtain ⟨a, ha⟩ : ∃ a, s.application.lossTime = a := ⟨_, rfl⟩
  simp only [hi, hh, ha]
  cases i <;> cases h <;> cases a <;> simp [optLt, found] <;> (repeat' split) <;> simp_all <;> omega

/-- **C134.** Whenever the timer is computed and a loss time is pending in such a way that
every later space is pending too, it is the earliest one. Missing: a pending space followed
by one that is not. -/
theorem earliest_partial (s : State σ) (st : Status) (now : Nat)
    (h1 : s.initial.lossTime.isSome = true → s.handshake.lossTime.isSome = true)
    (h2 : s.handshake.lossTime.isSome = true → s.application.lossTime.isSome = true) (hp : pending s ≠ []) :
    ∃ t, s.timerFor st now = some t ∧ Earliest s t := by
  obtain ⟨t, e, hm, hl⟩ := found_least _ _ _ h1 h2 hp
  refine ⟨t, ?_, hm, hl⟩
  unfold State.timerFor
  rw [loss_exact, e]
  rfl

/-! ### Probe timeouts -/

/-- When a space would be probed: it must have a packet in flight, and application data is
not probed before the handshake is completed. -/
def due (s : State σ) (st : Status) (e : Epoch) (t : Nat) : Prop :=
  (s.get e).inFlightCount ≠ 0 ∧ (e = .application → st.completed = true) ∧
    ∃ t0, (s.get e).lastEliciting = some t0 ∧ t = t0 + period s.rtt.smoothed s.rtt.rttvar s.rtt.maxAckDelay s.ptoCount e

theorem pto_eq (s : State σ) : s.pto = s.rtt.smoothed + (if 4 * s.rtt.rttvar < 1000000 then 1000000 else 4 * s.rtt.rttvar) := by
  unfold State.pto
  congr 1
  simp only [granularity]
  split
  · exact Nat.max_eq_right (by omega)
  · rw [Nat.mul_comm]; exact Nat.max_eq_left (by omega)

theorem ptoStep_spec (s : State σ) (d : Nat) (acc : Option Nat × Epoch) (e : Epoch) (t0 : Nat)
    (hc : (s.get e).inFlightCount ≠ 0) (ht : (s.get e).lastEliciting = some t0) :
    (ptoStep s d acc e).1 = some (match acc.1 with | none => t0 + d | some u => if t0 + d < u then t0 + d else u) := by
  unfold ptoStep
  rw [if_neg hc, ht]
  cases ha : acc.1 with
  | none => simp
  | some u =>
    simp only [Option.map, optLt]
    by_cases h' : t0 + d < u
    · simp [h']
    · simp [h', ha]

theorem ptoStep_least {s : State σ} (h : Timed s) {P : Nat → Prop} {d : Nat} {acc : Option Nat × Epoch} (e : Epoch) (ha : Least P acc.1) :
    Least (fun t => P t ∨ ((s.get e).inFlightCount ≠ 0 ∧ ∃ t0, (s.get e).lastEliciting = some t0 ∧ t = t0 + d)) (ptoStep s d acc e).1 := by
  by_cases hc : (s.get e).inFlightCount = 0
  · unfold ptoStep
    rw [if_pos hc]
    cases hx : acc.1 with
    | none => rw [hx] at ha; intro t; exact fun hh => hh.elim (fun h1 => ha t h1) (fun h1 => h1.1 hc)
    | some u =>
      rw [hx] at ha
      refine ⟨Or.inl ha.1, ?_⟩
      rintro v (h1 | ⟨h1, _⟩)
      · exact ha.2 v h1
      · exact absurd hc h1
  · have hs := h e hc
    cases ht : (s.get e).lastEliciting with
    | none => rw [ht] at hs; cases hs
    | some t0 =>
      rw [ptoStep_spec s d acc e t0 hc ht]
      cases hx : acc.1 with
      | none =>
        rw [hx] at ha
        refine ⟨Or.inr ⟨hc, t0, rfl, rfl⟩, ?_⟩
        rintro v (h1 | ⟨_, t1, h1, h2⟩)
        · exact absurd h1 (ha v)
        · cases h1; exact Nat.le_of_eq h2.symm
      | some u =>
        rw [hx] at ha
        by_cases hlt : t0 + d < u
        · simp only [if_pos hlt]
          refine ⟨Or.inr ⟨hc, t0, rfl, rfl⟩, ?_⟩
          rintro v (h1 | ⟨_, t1, h1, h2⟩)
          · have := ha.2 v h1; omega
          · cases h1; exact Nat.le_of_eq h2.symm
        · simp only [if_neg hlt]
          refine ⟨Or.inl ha.1, ?_⟩
          rintro v (h1 | ⟨_, t1, h1, h2⟩)
          · exact ha.2 v h1
          · cases h1; omega

/-- **C134.** Whenever the timer is computed with no loss time pending and bytes in flight, it
is the earliest time at which a space is due to be probed, if all spaces with packets in
flight have sent an ack-eliciting one. If no space is due there is no timer. -/
theorem probe_time (s : State σ) (st : Status) (now : Nat) (hl : s.lossTimeAndSpace.1 = none) (hb : 0 < s.flight.bytes) (ht : Timed s) :
    Least (fun t => ∃ e, due s st e t) (s.timerFor st now) := by
  unfold State.timerFor
  rw [hl, if_neg (by simp), if_neg (by rintro ⟨h0, _⟩; omega)]
  unfold State.ptoTimeAndSpace
  dsimp only
  rw [if_neg (by omega)]
  have h0 : Least (fun _ => False) (none : Option Nat) := fun _ h => h
  have h1 := ptoStep_least ht (d := s.pto * pow2 s.ptoCount) (acc := (none, Epoch.initial)) .initial h0
  have h2 := ptoStep_least ht (d := s.pto * pow2 s.ptoCount) .handshake h1
  have ee : ∀ e, e ≠ Epoch.application → period s.rtt.smoothed s.rtt.rttvar s.rtt.maxAckDelay s.ptoCount e = s.pto * pow2 s.ptoCount := by
    intro e he
    unfold period
    rw [if_neg he, pow2_eq, pto_eq]; rfl
  have ea : period s.rtt.smoothed s.rtt.rttvar s.rtt.maxAckDelay s.ptoCount .application =
      s.pto * pow2 s.ptoCount + s.rtt.maxAckDelay * pow2 s.ptoCount := by
    unfold period
    rw [if_pos rfl, pow2_eq, pto_eq, Nat.add_mul]
  split
  · rename_i hc
    refine h2.congr ?_
    intro t
    constructor
    · rintro ((h | ⟨h, t0, h3, h4⟩) | ⟨h, t0, h3, h4⟩)
      · cases h
      · exact ⟨.initial, h, (fun h => by cases h), t0, h3, by rw [ee _ (by decide)]; exact h4⟩
      · exact ⟨.handshake, h, (fun h => by cases h), t0, h3, by rw [ee _ (by decide)]; exact h4⟩
    · rintro ⟨e, h, h5, t0, h3, h4⟩
      cases e with
      | initial => rw [ee _ (by decide)] at h4; exact Or.inl (Or.inr ⟨h, t0, h3, h4⟩)
      | handshake => rw [ee _ (by decide)] at h4; exact Or.inr ⟨h, t0, h3, h4⟩
      | application => rw [hc] at h5; cases h5 rfl
  · rename_i hc
    have hc' : st.completed = true := by cases hx : st.completed <;> simp_all
    have h3 := ptoStep_least ht (d := s.pto * pow2 s.ptoCount + s.rtt.maxAckDelay * pow2 s.ptoCount) .application h2
    refine h3.congr ?_
    intro t
    constructor
    · rintro (((h | ⟨h, t0, h3, h4⟩) | ⟨h, t0, h3, h4⟩) | ⟨h, t0, h3, h4⟩)
      · cases h
      · exact ⟨.initial, h, (fun h => by cases h), t0, h3, by rw [ee _ (by decide)]; exact h4⟩
      · exact ⟨.handshake, h, (fun h => by cases h), t0, h3, by rw [ee _ (by decide)]; exact h4⟩
      · exact ⟨.application, h, fun _ => hc', t0, h3, by rw [ea]; exact h4⟩
    · rintro ⟨e, h, h5, t0, h3, h4⟩
      cases e with
      | initial => rw [ee _ (by decide)] at h4; exact Or.inl (Or.inl (Or.inr ⟨h, t0, h3, h4⟩))
      | handshake => rw [ee _ (by decide)] at h4; exact Or.inl (Or.inr ⟨h, t0, h3, h4⟩)
      | application => rw [ea] at h4; exact Or.inr ⟨h, t0, h3, h4⟩

theorem neuter_pto (en : Env σ) : ∀ (l : List Nat) (u : State σ), (State.neuter en u l).ptoCount = u.ptoCount
  | [], _ => rfl
  | _ :: l, u => neuter_pto en l _

/-- **C134.** The number of probe timeouts since the last progress: it is zero after an ACK
that acknowledges something new, one more after a timeout without pending loss time, and
otherwise unchanged. -/
theorem count (en : Env σ) (s : State σ) (o : Op) (hf : (step en s o).1.failed = false) : (step en s o).1.ptoCount =
    match o with
    | .ack .. => if (step en s o).2.acked = [] then s.ptoCount else 0
    | .timeout .. => if s.lossTimeAndSpace.1.isSome = true then s.ptoCount else s.ptoCount + 1
    | _ => s.ptoCount := by
  cases o with
  | send e p st now =>
    show (s.onSent en e p st now).ptoCount = s.ptoCount
    unfold State.onSent State.sentInFlight
    dsimp only
    split <;> cases e <;> rfl
  | ack e rs delay st now skip =>
    have hf' : (s.onAck en e rs delay st now skip).1.failed = false := hf
    show (s.onAck en e rs delay st now skip).1.ptoCount = if (s.onAck en e rs delay st now skip).2.acked = [] then s.ptoCount else 0
    rcases onAck_cases en s e rs delay st now skip with ⟨_, he⟩ | ⟨hnf, hn, he⟩ | ⟨hnf, last, hl, he⟩
    · rw [he] at hf'; cases hf'
    · rw [he]; cases e <;> rfl
    · obtain ⟨t, ht⟩ : ∃ t, t = ackState en s e rs delay st now skip last := ⟨_, rfl⟩
      obtain ⟨-, -, -, -, -, g6, -, -, -, -, -, -, -, -, -, -, g17⟩ := ackTail_spec en s e rs delay st now skip last ht he
      rw [g6, g17, if_neg (by intro h; rw [h] at hl; cases hl)]
  | timeout st now =>
    show (s.onTimeout en st now).1.ptoCount = if s.lossTimeAndSpace.1.isSome = true then s.ptoCount else s.ptoCount + 1
    unfold State.onTimeout
    split
    · exact (detectLost_spec en s _ now).2.2.2.2.2.2.2.2.1
    · show (s.onPto en st now).ptoCount = _
      unfold State.onPto
      dsimp only
      cases s.ptoSpace st now <;> rfl
  | discard e st now =>
    show (s.onDiscard en e st now).1.ptoCount = s.ptoCount
    unfold State.onDiscard
    dsimp only
    show (State.neuter en _ _).ptoCount = _
    rw [neuter_pto]
    cases e <;> rfl
  | pathChange e now => exact (detectLost_spec en s _ now).2.2.2.2.2.2.2.2.1
  | pingSent e => cases e <;> rfl
  | nextAcked e => cases e <;> rfl
  | nextLost e => cases e <;> rfl
  | ackDelay d => rfl

/-- **C134.** A probe timeout asks for one probe the first time and for two from then on, in
the space that was due, and leaves the probes of the others alone. -/
theorem probes (en : Env σ) (s : State σ) (st : Status) (now : Nat) (hl : s.lossTimeAndSpace.1 = none) (e : Epoch) :
    ((step en s (.timeout st now)).1.get e).lossProbes =
      if e = s.ptoSpace st now then (if s.ptoCount = 0 then 1 else 2) else (s.get e).lossProbes := by
  show ((s.onTimeout en st now).1.get e).lossProbes = _
  unfold State.onTimeout
  rw [hl, if_neg (by simp)]
  dsimp only
  rw [(onPto_spec en s st now).1]
  split
  · unfold Space.onProbe
    dsimp only
    simp only [maxPtoProbes]
    split
    · next h => rw [h]; rfl
    · next h => exact Nat.min_eq_left (by omega)
  · rfl

/-! ### Backing off -/

theorem onPto_same (en : Env σ) (s : State σ) (st : Status) (now : Nat) (e : Epoch) :
    (s.onPto en st now).rtt = s.rtt ∧ (s.onPto en st now).flight = s.flight ∧ (s.onPto en st now).ptoCount = s.ptoCount + 1 ∧
    ((s.onPto en st now).get e).inFlightCount = (s.get e).inFlightCount ∧ ((s.onPto en st now).get e).lastEliciting = (s.get e).lastEliciting ∧
    ((s.onPto en st now).get e).lossTime = (s.get e).lossTime := by
  unfold State.onPto
  dsimp only
  cases s.ptoSpace st now <;> cases e <;> exact ⟨rfl, rfl, rfl, rfl, rfl, rfl⟩

theorem onPto_loss (en : Env σ) (s : State σ) (st : Status) (now : Nat) : (s.onPto en st now).lossTimeAndSpace = s.lossTimeAndSpace := by
  have hi := (onPto_same en s st now .initial).2.2.2.2.2
  have hh := (onPto_same en s st now .handshake).2.2.2.2.2
  have ha := (onPto_same en s st now .application).2.2.2.2.2
  simp only [State.get] at hi hh ha
  unfold State.lossTimeAndSpace lossStep
  simp only [State.get, hi, hh, ha]
  rfl

/-- Timeouts, one after the other. -/
def timeouts (en : Env σ) (st : Status) (s : State σ) : List Nat → State σ
  | [] => s
  | t :: ts => timeouts en st (step en s (.timeout st t)).1 ts

theorem timeout_eq (en : Env σ) (st : Status) (s : State σ) (t : Nat) (h : s.lossTimeAndSpace.1 = none) :
    (step en s (.timeout st t)).1 = s.onPto en st t := by
  show (s.onTimeout en st t).1 = _
  unfold State.onTimeout
  rw [h, if_neg (by simp)]

theorem timeouts_same (en : Env σ) (st : Status) : ∀ (ts : List Nat) (s : State σ), s.lossTimeAndSpace.1 = none →
    (timeouts en st s ts).ptoCount = s.ptoCount + ts.length ∧ (timeouts en st s ts).rtt = s.rtt ∧ (timeouts en st s ts).flight = s.flight ∧
    (timeouts en st s ts).lossTimeAndSpace.1 = none ∧
    ∀ e, ((timeouts en st s ts).get e).inFlightCount = (s.get e).inFlightCount ∧ ((timeouts en st s ts).get e).lastEliciting = (s.get e).lastEliciting
  | [], _, h => ⟨rfl, rfl, rfl, h, fun _ => ⟨rfl, rfl⟩⟩
  | t :: ts, s, h => by
    have ih := timeouts_same en st ts (s.onPto en st t) (by rw [onPto_loss]; exact h)
    unfold timeouts
    rw [timeout_eq en st s t h]
    obtain ⟨h1, h2, h3, h4, h5⟩ := ih
    have hs := onPto_same en s st t
    refine ⟨?_, ?_, ?_, h4, ?_⟩
    · rw [h1, (hs .initial).2.2.1, List.length_cons]; omega
    · rw [h2, (hs .initial).1]
    · rw [h3, (hs .initial).2.1]
    · intro e
      rw [(h5 e).1, (h5 e).2]
      exact ⟨(hs e).2.2.2.1, (hs e).2.2.2.2.1⟩

theorem timeouts_snoc (en : Env σ) (st : Status) (t : Nat) : ∀ (ts : List Nat) (s : State σ),
    timeouts en st s (ts ++ [t]) = (step en (timeouts en st s ts) (.timeout st t)).1
  | [], _ => rfl
  | _ :: ts, s => timeouts_snoc en st t ts _

/-- **C134.** With nothing acknowledged in between, the timer after further timeouts is the
time of the last ack-eliciting packet plus the period for as many more timeouts, when the
data in flight is all in one space. -/
theorem backoff (en : Env σ) (st : Status) (s : State σ) (ts : List Nat) (t : Nat) (e : Epoch) (t0 : Nat)
    (hl : s.lossTimeAndSpace.1 = none) (hb : 0 < s.flight.bytes) (hc : (s.get e).inFlightCount ≠ 0) (ht : (s.get e).lastEliciting = some t0)
    (ho : ∀ e', e' ≠ e → (s.get e').inFlightCount = 0) (ha : e = .application → st.completed = true) :
    (timeouts en st s (ts ++ [t])).timer =
      some (t0 + period s.rtt.smoothed s.rtt.rttvar s.rtt.maxAckDelay (s.ptoCount + (ts.length + 1)) e) := by
  obtain ⟨h1, h2, h3, h4, h5⟩ := timeouts_same en st ts s hl
  obtain ⟨n1, n2, n3, n4, n5⟩ := timeouts_same en st (ts ++ [t]) s hl
  have htm : (timeouts en st s (ts ++ [t])).timer = (timeouts en st s (ts ++ [t])).timerFor st t := by
    rw [timeouts_snoc, timeout_eq en st _ t h4]
    rfl
  rw [htm]
  generalize timeouts en st s (ts ++ [t]) = u at *
  have hT : Timed u := by
    intro e' he'
    by_cases hee : e' = e
    · subst hee; rw [(n5 e').2, ht]; rfl
    · exact absurd (by rw [(n5 e').1]; exact ho e' hee) he'
  have hp := probe_time u st t n4 (by rw [n3]; exact hb) hT
  have hd : due u st e (t0 + period s.rtt.smoothed s.rtt.rttvar s.rtt.maxAckDelay (s.ptoCount + (ts.length + 1)) e) := by
    refine ⟨by rw [(n5 e).1]; exact hc, ha, t0, by rw [(n5 e).2]; exact ht, ?_⟩
    rw [n2, n1]
    simp
  cases hx : u.timerFor st t with
  | none => rw [hx] at hp; exact absurd ⟨e, hd⟩ (hp _)
  | some v =>
    rw [hx] at hp
    obtain ⟨⟨e', hd'⟩, _⟩ := hp
    have hee : e' = e := by
      by_cases hee : e' = e
      · exact hee
      · exact absurd (by rw [(n5 e').1]; exact ho e' hee) hd'.1
    subst hee
    obtain ⟨-, -, t1, ht1, hv⟩ := hd'
    rw [(n5 e').2, ht] at ht1
    cases ht1
    rw [hv, n2, n1]
    simp

/-! ### Witnesses -/

/-- A client has completed the handshake and sent its last Handshake packet; the datagram
also has a padded 1-RTT packet with an ACK. The Handshake packet is in flight and there is
no timer. -/
theorem armed_false : ∃ os : List Op, Ascending os ∧ (run quietEnv s0 os).1.failed = false ∧
    0 < (run quietEnv s0 os).1.flight.bytes ∧ (run quietEnv s0 os).1.handshake.inFlightCount = 1 ∧ (run quietEnv s0 os).1.timer = none :=
  ⟨[.send .handshake (data 1 1000) ⟨true, false, true⟩ 1000, .send .application (padded 2 200) ⟨true, false, true⟩ 1000],
    by unfold Ascending; decide +kernel, by decide +kernel, by decide +kernel, by decide +kernel, by decide +kernel⟩

/-- During the handshake. -/
def during : Status := ⟨true, false, false⟩

/-- Two Handshake packets, sent 1 ms apart; 20 ms later the second is acknowledged. -/
def gap : List Op :=
  [.send .handshake (data 1 1000) during 1000000000, .send .handshake (data 2 1000) during 1001000000,
   .ack .handshake [(2, 3)] 0 during 1021000000 none]

/-- The first packet is pending loss at 1022.5 ms, but the timer is set to 1061 ms; when it
fires nothing is declared lost. -/
theorem earliest_false : Ascending gap ∧ pending (run quietEnv s0 gap).1 = [1022500000] ∧ (run quietEnv s0 gap).1.timer = some 1061000000 ∧
    (step quietEnv (run quietEnv s0 gap).1 (.timeout during 1061000000)).2.lost = [] := by
  refine ⟨?_, ?_, ?_, ?_⟩
  · unfold Ascending; decide +kernel
  all_goals decide +kernel

/-- With only the application space pending the timer is right. -/
example :
    let os := [Op.send .application (data 1 1000) done 1000000000, .send .application (data 2 1000) done 1001000000,
      .ack .application [(2, 3)] 0 done 1021000000 none]
    ((run quietEnv s0 os).1.timer, pending (run quietEnv s0 os).1,
      (step quietEnv (run quietEnv s0 os).1 (.timeout done 1022500000)).2.lost.map Prod.fst) = (some 1022500000, [1022500000], [1]) := by decide +kernel

/-- At a change of path a loss time becomes pending, but the timer stays that of the probe
timeout. -/
theorem pathChange_false : ∃ os : List Op, Ascending os ∧ (run quietEnv s0 os).1.failed = false ∧
    ∃ t u, pending (run quietEnv s0 os).1 = [t] ∧ (run quietEnv s0 os).1.timer = some u ∧ t < u :=
  ⟨[.send .application (data 0 1000) done 1000, .pathChange .application 2000], by unfold Ascending; decide +kernel, by decide +kernel,
    112501000, 325001000, by decide +kernel, by decide +kernel, by decide⟩

/-- An ordinary flight is armed and backs off; once it is acknowledged the timer is cleared. -/
example :
    let os := [Op.send .application (data 1 1000) done 1000, .send .application (data 2 1000) done 2000]
    ((run quietEnv s0 os).1.timer, (run quietEnv s0 (os ++ [.timeout done 325002000])).1.timer,
     (run quietEnv s0 (os ++ [.ack .application [(1, 3)] 0 done 9000 none])).1.timer) = (some 325002000, some 650002000, none) := by decide +kernel

/-- A discarded space has no loss time pending, no packet in flight and no probe to send;
the others are as before. -/
theorem discarded (en : Env σ) (s : State σ) (e : Epoch) (st : Status) (now : Nat) :
    let s' := (step en s (.discard e st now)).1
    (s'.get e).lossTime = none ∧ (s'.get e).lastEliciting = none ∧ (s'.get e).inFlightCount = 0 ∧ (s'.get e).lossProbes = 0
    ∧ (s'.get e).sent = [] ∧ ∀ e', e' ≠ e → s'.get e' = s.get e' := by
  have h := (onDiscard_spec en s e st now).1
  have he : (s.onDiscard en e st now).1.get e = (s.get e).discard := by rw [h, if_pos rfl]
  show ((s.onDiscard en e st now).1.get e).lossTime = none ∧ ((s.onDiscard en e st now).1.get e).lastEliciting = none ∧
    ((s.onDiscard en e st now).1.get e).inFlightCount = 0 ∧ ((s.onDiscard en e st now).1.get e).lossProbes = 0
    ∧ ((s.onDiscard en e st now).1.get e).sent = [] ∧ ∀ e', e' ≠ e → (s.onDiscard en e st now).1.get e' = s.get e'
  rw [he]
  exact ⟨rfl, rfl, rfl, rfl, rfl, fun e' hne => by rw [h, if_neg hne]⟩

end Verif.Props.C134
