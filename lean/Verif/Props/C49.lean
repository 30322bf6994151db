import Verif.Life.Lemmas

/-!
C49: the effective idle timeout, and when a connection is closed for being idle.

The first part characterises the timeout. The second follows the idle deadline through a
whole run: it is a function of the log of activity alone, namely the time of the last
activity that counts plus the timeout in force then, where processing a packet counts
always and sending an ack-eliciting packet counts only if none was sent since a packet was
processed. `is_timed_out()` holds exactly when a timeout was handled at or after that
deadline.
-/

namespace Verif.Props.C49
open Verif Verif.Life Verif.Frame

/-- The timeouts stated by the two endpoints, in nanoseconds; zero means none. -/
def stated (l p : Nat) : List Nat := ([l, p].filter (· ≠ 0)).map (· * ms)

/-- There is a timeout iff one endpoint stated one. It is at least three probe timeouts,
it is otherwise one of the stated values, and no stated value (raised to three probe
timeouts) is smaller. -/
theorem effective (l p : Nat) (pto : Option Nat) :
    (idleTimeout l p pto = none ↔ stated l p = []) ∧
    ∀ t, idleTimeout l p pto = some t ↔
      ((∃ x ∈ stated l p, t = max x (3 * pto.getD 0)) ∧
        ∀ x ∈ stated l p, t ≤ max x (3 * pto.getD 0)) := by
  by_cases hl : l = 0 <;> by_cases hp : p = 0
  · subst hl; subst hp
    have e : stated 0 0 = [] := rfl
    have e' : idleTimeout 0 0 pto = none := rfl
    rw [e, e']
    simp
  · subst hl
    have e : stated 0 p = [p * ms] := by simp [stated, List.filter_cons, hp]
    have e' : idleTimeout 0 p pto = some (max (p * ms) (3 * pto.getD 0)) := by
      unfold idleTimeout; rw [if_neg (by omega)]; rfl
    rw [e, e']
    refine ⟨by simp, fun t => ?_⟩
    simp only [Option.some.injEq, List.mem_singleton, exists_eq_left, forall_eq]
    omega
  · subst hp
    have e : stated l 0 = [l * ms] := by simp [stated, List.filter_cons, hl]
    have e' : idleTimeout l 0 pto = some (max (l * ms) (3 * pto.getD 0)) := by
      unfold idleTimeout; rw [if_neg (by omega)]; dsimp only; rw [if_neg hl]; rfl
    rw [e, e']
    refine ⟨by simp, fun t => ?_⟩
    simp only [Option.some.injEq, List.mem_singleton, exists_eq_left, forall_eq]
    omega
  · have e : stated l p = [l * ms, p * ms] := by simp [stated, List.filter_cons, hl, hp]
    have e' : idleTimeout l p pto = some (max (min l p * ms) (3 * pto.getD 0)) := by
      unfold idleTimeout; rw [if_neg (by omega)]; dsimp only; rw [if_neg hl, if_neg hp]
    rw [e, e']
    refine ⟨by simp, fun t => ?_⟩
    simp only [Option.some.injEq, List.mem_cons, List.not_mem_nil, or_false, exists_eq_or_imp,
      exists_eq_left, forall_eq_or_imp, forall_eq, ms]
    rcases Nat.le_total l p with h | h
    · rw [Nat.min_eq_left h]; omega
    · rw [Nat.min_eq_right h]; omega

/-- Never below three probe timeouts. -/
theorem at_least_three_ptos {l p : Nat} {pto : Option Nat} {t : Nat}
    (h : idleTimeout l p pto = some t) : 3 * pto.getD 0 ≤ t := by
  obtain ⟨⟨x, _, hx⟩, _⟩ := ((effective l p pto).2 t).1 h
  omega

/-- With quick round trips: the smaller of the two, or the only one. -/
example : idleTimeout 5000 3000 (some 1000000) = some (3000 * ms) := by decide
example : idleTimeout 0 3000 (some 1000000) = some (3000 * ms) := by decide
example : idleTimeout 5000 0 (some 1000000) = some (5000 * ms) := by decide
example : idleTimeout 0 0 (some 1000000) = none := by decide
/-- On a slow path: three probe timeouts. -/
example : idleTimeout 1 3000 (some 1000000000) = some 3000000000 := by decide

/-! ### The deadline -/

/-- An entry of the log of activity: a packet was processed, or an ack-eliciting packet was
sent, when, and the idle timeout in force then. -/
inductive Act where
  | rx (now : Nat) (d : Option Nat)
  | tx (now : Nat) (d : Option Nat)
  deriving DecidableEq, Repr

/-- Was an ack-eliciting packet sent since a packet was last processed? The log has the
latest entry first. -/
def txSince : List Act → Bool
  | [] => false
  | .rx _ _ :: _ => false
  | .tx _ _ :: _ => true

/-- When the connection is to be closed, by the log of activity. -/
def deadline : List Act → Option Nat
  | [] => none
  | .rx now (some d) :: _ => some (now + d)
  | .rx _ none :: l => deadline l
  | .tx now d :: l =>
    if txSince l then deadline l
    else match d with
    | some d => some (now + d)
    | none => deadline l

/-- The idle timeout in force in a state. -/
def timeoutOf (s : State) : Option Nat := idleTimeout s.localIdle s.env.peerIdle s.env.pto

/-- The activity of receiving packets: one entry for each packet processed, which is when
`stats().recv` grows. -/
def rxLog (s : State) (now : Nat) : List (Pkt × Bool) → List Act → List Act
  | [], a => a
  | (p, _) :: l, a =>
    match recvSingle s now p with
    | (s', .ok) => rxLog s' now l (.rx now (timeoutOf s') :: a)
    | _ => a

/-- Is the packet sent ack-eliciting? Of the frames sent while closing all but ACK are. -/
def eliciting (f : Free) : List SFrame → Bool
  | [.other] => match f with | .sends _ _ el => el | _ => false
  | fr => fr.any fun x => x != .ack

/-- The activity of sending. -/
def txLog (s : State) (now : Nat) : List (Slot × Free) → List Act → List Act
  | [], a => a
  | (x, f) :: l, a =>
    match sendSingle s now x f with
    | (s', .sent ty fr) =>
      let a := if eliciting f fr then .tx now (timeoutOf s') :: a else a
      if ty = .short then a else txLog s' now l a
    | _ => a

/-- The activity in one call, put before the log. -/
def act (s : State) (a : List Act) : Ev → List Act
  | .recv now l => rxLog s now l a
  | .send now h l =>
    if s.closed || s.drain.isSome then a
    else if s.localErr.isSome then txLog s now l a
    else match h with
    | .ok env => txLog { s with env := env } now l a
    | .failed _ _ => a
  | _ => a

/-- The log of a run, latest first, continuing `a`. -/
def log (s : State) (a : List Act) : List Ev → List Act
  | [] => a
  | e :: l => log (step s e) (act s a e) l

/-- The idle timer and the flag agree with the log. -/
def Agrees (s : State) (a : List Act) : Prop := s.idle = deadline a ∧ s.aeSent = txSince a

/-- What matters of the state for the agreement. -/
theorem Agrees.congr {s t : State} {a : List Act} (h : Agrees s a) (h1 : t.idle = s.idle)
    (h2 : t.aeSent = s.aeSent) : Agrees t a := ⟨h1.trans h.1, h2.trans h.2⟩

theorem received_agrees {s : State} {a : List Act} (h : Agrees s a) (now : Nat) :
    Agrees (s.received now) (.rx now (timeoutOf (s.received now)) :: a) := by
  have ht : timeoutOf (s.received now) = timeoutOf s := by
    unfold timeoutOf State.received State.restartIdle
    split <;> rfl
  rw [ht]
  refine ⟨?_, rfl⟩
  show (s.restartIdle now).idle = _
  unfold State.restartIdle
  cases hd : timeoutOf s with
  | none =>
    unfold timeoutOf at hd
    rw [hd]
    simp only [deadline]
    exact h.1
  | some d =>
    unfold timeoutOf at hd
    rw [hd]
    rfl

theorem onClose_agrees {s : State} {a : List Act} (h : Agrees s a) (now : Nat)
    (l : List (CErr × Option Nat)) : Agrees (onClose s now l).1 a := by
  obtain ⟨h1, _⟩ := onClose_spec now l s
  refine h.congr ?_ ?_ <;> rw [h1]

theorem markClosed_agrees {s : State} {a : List Act} (h : Agrees s a) :
    Agrees s.markClosed a := h.congr rfl rfl

theorem close_agrees {s : State} {a : List Act} (h : Agrees s a) (b : Bool) (c : Nat)
    (r : Bytes) : Agrees (close s b c r).1 a := by
  rcases close_spec s b c r with e | ⟨_, _, er, e⟩
  · rw [e]; exact h
  · rw [e]; dsimp only; split <;> exact h.congr rfl rfl

theorem recv_agrees (now : Nat) : ∀ (l : List (Pkt × Bool)) {s : State} {a : List Act},
    Agrees s a → Agrees (recv s now l).1 (rxLog s now l a) := by
  intro l
  induction l with
  | nil => intro s a h; exact h
  | cons x l ih =>
    obtain ⟨p, reset⟩ := x
    intro s a h
    simp only [recv, rxLog]
    rcases recvSingle_cases s now p with e | ⟨_, _, e⟩
    · rw [e]; dsimp only; split
      · exact markClosed_agrees h
      · exact h
    · have key : ∀ env tls cl,
          Agrees (onClose { s with env := env, localErr := orErr tls none } now cl).1 a :=
        fun env tls cl => onClose_agrees (s := { s with env := env, localErr := orErr tls none })
          (h.congr rfl rfl) now cl
      rcases e with ⟨env, tls, cl, code, _, c, e⟩ | ⟨env, tls, cl, _, e⟩
      · rw [e]; dsimp only
        exact close_agrees (key env tls cl) _ _ _
      · rcases e with ⟨_, e⟩ | ⟨_, c, e⟩
        · rw [e]; dsimp only
          exact ih (received_agrees (key env tls cl) now)
        · rw [e]; dsimp only
          exact close_agrees (key env tls cl) _ _ _

theorem finishSend_agrees {s : State} {a : List Act} (h : Agrees s a) (now : Nat)
    (ty : PktType) (el : Bool) :
    Agrees (s.finishSend now ty el)
      (if el then .tx now (timeoutOf (s.finishSend now ty el)) :: a else a) := by
  obtain ⟨s1, hs1⟩ : ∃ s1, s1 = (if (!s.isServer && ty == .handshake) = true then
      { s with env := { s.env with initial := s.env.initial.drop } } else s) := ⟨_, rfl⟩
  have h1 : Agrees s1 a := by rw [hs1]; split <;> exact h.congr rfl rfl
  have e0 : s.finishSend now ty el =
      { (if (el && !s1.aeSent) = true then s1.restartIdle now else s1) with
        aeSent := (if (el && !s1.aeSent) = true then s1.restartIdle now
          else s1).aeSent || el } := by
    rw [hs1]; rfl
  have ht : timeoutOf (s.finishSend now ty el) = timeoutOf s1 := by
    rw [e0]
    unfold timeoutOf State.restartIdle
    split
    · split <;> rfl
    · rfl
  rw [ht, e0]
  cases el with
  | false =>
    simp only [Bool.false_and, Bool.or_false]
    exact h1.congr rfl rfl
  | true =>
    simp only [Bool.true_and, Bool.or_true, if_true]
    refine ⟨?_, rfl⟩
    simp only [deadline]
    rw [← h1.2]
    cases ha : s1.aeSent with
    | true => simpa using h1.1
    | false =>
      simp only [Bool.not_false, if_true, Bool.false_eq_true, if_false]
      unfold State.restartIdle
      cases hd : timeoutOf s1 with
      | none => unfold timeoutOf at hd; rw [hd]; exact h1.1
      | some d => unfold timeoutOf at hd; rw [hd]

theorem replicate_any (n : Nat) :
    (List.replicate n SFrame.pathResponse).any (fun x => x != .ack) = decide (0 < n) := by
  induction n with
  | zero => rfl
  | succ n ih => rw [List.replicate_succ, List.any_cons, ih]; simp

theorem closingFrames_any (ack : Bool) (n : Nat) (chal c : Bool) (e : CErr) :
    (closingFrames ack n chal c e).any (fun x => x != .ack) =
      (decide (0 < n) || chal || c) := by
  unfold closingFrames
  simp only [List.any_append, replicate_any]
  have e1 : (SFrame.close e != SFrame.ack) = true := by simp
  have e2 : (SFrame.pathChallenge != SFrame.ack) = true := by simp
  have e3 : (SFrame.ack != SFrame.ack) = false := by simp
  cases ack <;> cases chal <;> cases c <;> simp [e1, e2, e3]

theorem closingFrames_ne_other (ack : Bool) (n : Nat) (chal c : Bool) (e : CErr) :
    closingFrames ack n chal c e ≠ [.other] := by
  intro h
  have : SFrame.other ∈ closingFrames ack n chal c e := by rw [h]; simp
  unfold closingFrames at this
  simp only [List.mem_append, List.mem_replicate] at this
  cases ack <;> cases chal <;> cases c <;> simp at this

theorem eliciting_closing (f : Free) (ack : Bool) (n : Nat) (chal c : Bool) (e : CErr) :
    eliciting f (closingFrames ack n chal c e) = (decide (0 < n) || chal || c) := by
  rw [← closingFrames_any ack n chal c e]
  unfold eliciting
  split
  · rename_i h; exact absurd h (closingFrames_ne_other _ _ _ _ _)
  · rfl

theorem sendSingle_agrees {s : State} {a : List Act} (h : Agrees s a) (now : Nat) (x : Slot)
    (f : Free) : ∀ s' r, sendSingle s now x f = (s', r) →
      Agrees s' (match r with
        | .sent _ fr => if eliciting f fr then .tx now (timeoutOf s') :: a else a
        | _ => a) := by
  intro s' r hr
  unfold sendSingle at hr
  split at hr
  · cases hr; exact h
  · split at hr
    · rename_i e _
      split at hr
      · cases hr; exact h
      · cases hr; exact h
      · rename_i ty _
        rcases closingPacket_spec s e now x ty with ⟨v, h1, h2⟩ |
          ⟨v, ack, n, chal, c, el, h1, h2, _, _, _, _, hel⟩
        · rw [hr] at h1 h2
          dsimp only at h1 h2
          rw [h1]
          rcases h2 with h2 | h2 <;> rw [h2] <;> exact h.congr rfl rfl
        · rw [hr] at h1 h2
          dsimp only at h1 h2
          rw [h2]
          dsimp only
          rw [eliciting_closing, ← hel, h1]
          exact finishSend_agrees (s := { s with env := v, drain := drainAfter s now x c })
            (h.congr rfl rfl) now ty el
    · split at hr
      · cases hr; exact h.congr rfl rfl
      · cases hr; exact h.congr rfl rfl
      · rename_i env ty el
        cases hr
        exact finishSend_agrees (s := { s with env := env }) (h.congr rfl rfl) now ty el

theorem sendLoop_agrees (now : Nat) : ∀ (l : List (Slot × Free)) {s : State} {a : List Act},
    Agrees s a → Agrees (sendLoop s now l).1 (txLog s now l a) := by
  intro l
  induction l with
  | nil => intro s a h; exact h
  | cons y l ih =>
    obtain ⟨x, f⟩ := y
    intro s a h
    simp only [sendLoop, txLog]
    obtain ⟨s', r, hr⟩ : ∃ s' r, sendSingle s now x f = (s', r) := ⟨_, _, rfl⟩
    have hk := sendSingle_agrees h now x f s' r hr
    rw [hr]
    cases r with
    | sent ty fr =>
      dsimp only at hk ⊢
      split
      · exact hk
      · exact ih hk
    | done => exact hk
    | err => exact hk
    | panic => exact hk

theorem step_agrees {s : State} {a : List Act} (h : Agrees s a) (e : Ev) :
    Agrees (step s e) (act s a e) := by
  cases e with
  | recv now l => exact recv_agrees now l h
  | send now hs l =>
    simp only [step, act, send]
    split
    · exact h
    · split
      · exact sendLoop_agrees now l h
      · split
        · exact sendLoop_agrees now l (h.congr rfl rfl)
        · exact h.congr rfl rfl
  | timeout now t =>
    simp only [step, act, onTimeout]
    split
    · split
      · exact markClosed_agrees h
      · exact h
    · split
      · exact h.congr rfl rfl
      · unfold State.needPath
        split <;> exact h.congr rfl rfl
  | close b c r => exact close_agrees h b c r
  | api p n ts => exact h.congr rfl rfl

/-- **The idle deadline of every run is the one given by its log of activity.** -/
theorem deadline_exact (isServer : Bool) (idle : Nat) (env : Env) (evs : List Ev) :
    (run (State.new isServer idle env) evs).idle =
      deadline (log (State.new isServer idle env) [] evs) := by
  have key : ∀ (evs : List Ev) (s : State) (a : List Act), Agrees s a →
      Agrees (run s evs) (log s a evs) := by
    intro evs
    induction evs with
    | nil => intro s a h; exact h
    | cons e evs ih => intro s a h; exact ih _ _ (step_agrees h e)
  exact (key evs _ [] ⟨rfl, rfl⟩).1

/-- A timeout handled at or after the deadline closes the connection, unless it is
draining. -/
theorem closes_when_due {s : State} {t now : Nat} (hd : s.drain = none)
    (ht : s.idle = some t) (hn : t ≤ now) (f : Fired) :
    (onTimeout s now f).closed = true ∧ (onTimeout s now f).timedOut = true := by
  unfold onTimeout
  rw [hd, ht]
  simp [expired, hn, State.markClosed]

/-- What the flag depends on. -/
theorem recv_timedOut (now : Nat) : ∀ (l : List (Pkt × Bool)) (s : State),
    (recv s now l).1.timedOut = s.timedOut := by
  have hc : ∀ (s : State) b c r, (close s b c r).1.timedOut = s.timedOut := by
    intro s b c r
    rcases close_spec s b c r with e | ⟨_, _, er, e⟩
    · rw [e]
    · rw [e]; dsimp only; split <;> rfl
  have ho : ∀ (s : State) env tls cl,
      (onClose { s with env := env, localErr := orErr tls none } now cl).1.timedOut =
        s.timedOut := by
    intro s env tls cl
    rw [(onClose_spec now cl { s with env := env, localErr := orErr tls none }).1]
  intro l
  induction l with
  | nil => intro s; rfl
  | cons x l ih =>
    obtain ⟨p, reset⟩ := x
    intro s
    simp only [recv]
    rcases recvSingle_cases s now p with e | ⟨_, _, e⟩
    · rw [e]; dsimp only; split <;> rfl
    · rcases e with ⟨env, tls, cl, code, _, c, e⟩ | ⟨env, tls, cl, _, e⟩
      · rw [e]; dsimp only; rw [hc, ho]
      · rcases e with ⟨_, e⟩ | ⟨_, c, e⟩
        · rw [e]; dsimp only
          rw [ih]
          show ((onClose _ now cl).1.restartIdle now).core.timedOut = _
          rw [restartIdle_core]
          exact ho s env tls cl
        · rw [e]; dsimp only; rw [hc, ho]

theorem sendSingle_timedOut (s : State) (now : Nat) (x : Slot) (f : Free) :
    (sendSingle s now x f).1.timedOut = s.timedOut := by
  have hf : ∀ (s : State) ty el, (s.finishSend now ty el).timedOut = s.timedOut := by
    intro s ty el
    have := finishSend_core s now ty el
    exact congrArg Core.timedOut this
  unfold sendSingle
  split
  · rfl
  · split
    · rename_i e _
      split
      · rfl
      · rfl
      · rename_i ty _
        rcases closingPacket_spec s e now x ty with ⟨v, h1, _⟩ | ⟨v, _, _, _, _, _, h1, _⟩
        · rw [h1]
        · rw [h1, hf]
    · split
      · rfl
      · rfl
      · rw [hf]

theorem sendLoop_timedOut (now : Nat) : ∀ (l : List (Slot × Free)) (s : State),
    (sendLoop s now l).1.timedOut = s.timedOut := by
  intro l
  induction l with
  | nil => intro s; rfl
  | cons y l ih =>
    obtain ⟨x, f⟩ := y
    intro s
    have hk := sendSingle_timedOut s now x f
    simp only [sendLoop]
    obtain ⟨s', r, hr⟩ : ∃ s' r, sendSingle s now x f = (s', r) := ⟨_, _, rfl⟩
    rw [hr] at hk ⊢
    cases r with
    | sent ty fr =>
      dsimp only
      split
      · exact hk
      · exact (ih s').trans hk
    | done => exact hk
    | err => exact hk
    | panic => exact hk

/-- Only a timeout handled at or after the deadline sets `is_timed_out()`. -/
theorem timedOut_step (s : State) (e : Ev) (h : s.timedOut = false)
    (h' : (step s e).timedOut = true) :
    ∃ now t f, e = .timeout now f ∧ s.drain = none ∧ s.idle = some t ∧ t ≤ now := by
  cases e with
  | recv now l =>
    have := recv_timedOut now l s
    simp only [step] at h'
    rw [this, h] at h'; cases h'
  | send now hs l =>
    simp only [step, send] at h'
    split at h'
    · rw [h] at h'; cases h'
    · split at h'
      · rw [sendLoop_timedOut, h] at h'; cases h'
      · split at h'
        · rw [sendLoop_timedOut] at h'; exact absurd (h.symm.trans h') (by simp)
        · exact absurd (h.symm.trans h') (by simp)
  | timeout now f =>
    simp only [step, onTimeout] at h'
    split at h'
    · split at h'
      · exact absurd (h.symm.trans h') (by simp)
      · exact absurd (h.symm.trans h') (by simp)
    · rename_i hd
      split at h'
      · rename_i he
        cases hi : s.idle with
        | none => rw [hi] at he; cases he
        | some t =>
          rw [hi] at he
          refine ⟨now, t, f, rfl, ?_, rfl, ?_⟩
          · cases hdr : s.drain with
            | none => rfl
            | some _ => rw [hdr] at hd; exact absurd rfl hd
          · simpa [expired] using he
      · unfold State.needPath at h'
        split at h' <;> exact absurd (h.symm.trans h') (by simp)
  | close b c r =>
    simp only [step] at h'
    rcases close_spec s b c r with e | ⟨_, _, er, e⟩
    · rw [e] at h'; exact absurd (h.symm.trans h') (by simp)
    · rw [e] at h'; dsimp only at h'
      split at h' <;> exact absurd (h.symm.trans h') (by simp)
  | api p n ts => exact absurd (h.symm.trans h') (by simp)

/-- Runs can be cut in two. -/
theorem run_append (s : State) (a b : List Ev) : run s (a ++ b) = run (run s a) b := by
  induction a generalizing s with
  | nil => rfl
  | cons e a ih => exact ih (step s e)

/-- **A connection is timed out exactly if a timeout was handled, while it was not
draining, at or after the deadline that its log of activity gives.** -/
theorem timed_out_iff (isServer : Bool) (idle : Nat) (env : Env) (evs : List Ev) :
    (run (State.new isServer idle env) evs).timedOut = true ↔
      ∃ before now f after t, evs = before ++ .timeout now f :: after ∧
        (run (State.new isServer idle env) before).drain = none ∧
        deadline (log (State.new isServer idle env) [] before) = some t ∧ t ≤ now := by
  have stays : ∀ (s : State) (e : Ev), s.timedOut = true → (step s e).timedOut = true := by
    intro s e h
    cases e with
    | recv now l => simp only [step]; rw [recv_timedOut]; exact h
    | send now hs l =>
      simp only [step, send]
      split
      · exact h
      · split
        · rw [sendLoop_timedOut]; exact h
        · split
          · rw [sendLoop_timedOut]; exact h
          · exact h
    | timeout now f =>
      simp only [step, onTimeout]
      split
      · split <;> exact h
      · split
        · rfl
        · unfold State.needPath
          split <;> exact h
    | close b c r =>
      simp only [step]
      rcases close_spec s b c r with e | ⟨_, _, er, e⟩
      · rw [e]; exact h
      · rw [e]; dsimp only; split <;> exact h
    | api p n ts => exact h
  have staysRun : ∀ (l : List Ev) (s : State), s.timedOut = true →
      (run s l).timedOut = true := by
    intro l
    induction l with
    | nil => intro s h; exact h
    | cons e l ih => intro s h; exact ih _ (stays s e h)
  constructor
  · have key : ∀ (l : List Ev) (s : State), s.timedOut = false → (run s l).timedOut = true →
        ∃ before now f after t, l = before ++ .timeout now f :: after ∧
          (run s before).drain = none ∧ (run s before).idle = some t ∧ t ≤ now := by
      intro l
      induction l with
      | nil => intro s h h'; exact absurd (h.symm.trans h') (by simp)
      | cons e l ih =>
        intro s h h'
        cases hs : (step s e).timedOut with
        | true =>
          obtain ⟨now, t, f, he, hd, hi, hn⟩ := timedOut_step s e h hs
          exact ⟨[], now, f, l, t, by rw [he]; rfl, hd, hi, hn⟩
        | false =>
          obtain ⟨b, now, f, af, t, hl, hd, hi, hn⟩ := ih (step s e) hs h'
          exact ⟨e :: b, now, f, af, t, by rw [hl]; rfl, hd, hi, hn⟩
    intro h
    obtain ⟨b, now, f, af, t, hl, hd, hi, hn⟩ := key evs _ rfl h
    refine ⟨b, now, f, af, t, hl, hd, ?_, hn⟩
    rw [← deadline_exact]; exact hi
  · rintro ⟨b, now, f, af, t, hl, hd, hi, hn⟩
    rw [← deadline_exact] at hi
    rw [hl, run_append]
    exact staysRun af _ (closes_when_due hd hi hn f).2

/-- An endpoint that keeps sending to a silent peer moves its deadline at most once: of the
packets sent since one was processed only the first counts. -/
theorem one_restart (a : List Act) (new : List Act) (h : ∀ x ∈ new, ∃ now d, x = .tx now d) :
    (txSince a = true → deadline (new ++ a) = deadline a) ∧
    ∀ now d, deadline (new ++ .tx now d :: a) = deadline (.tx now d :: a) := by
  have key : ∀ a : List Act, txSince a = true → deadline (new ++ a) = deadline a ∧
      txSince (new ++ a) = true := by
    intro a ha
    induction new with
    | nil => exact ⟨rfl, ha⟩
    | cons x new ih =>
      obtain ⟨now, d, hx⟩ := h x (by simp)
      obtain ⟨h1, h2⟩ := ih (fun y hy => h y (List.mem_cons_of_mem _ hy))
      subst hx
      refine ⟨?_, rfl⟩
      simp only [List.cons_append, deadline]
      rw [if_pos h2, h1]
  exact ⟨fun ha => (key a ha).1, fun now d => (key (.tx now d :: a) rfl).1⟩

/-! ### A concrete run -/

/-- Surroundings for examples: an established connection with a probe timeout of 1 ms. -/
def env0 : Env :=
  let e : Ep := ⟨false, false, false, false, false, false, false⟩
  { established := true, earlyData := false, confirmed := true, writeLevel := .oneRtt
    initial := e, handshake := e, app := { e with sealKey := true, openKey := true }
    peerIdle := 30, pto := some ms, nPaths := 1, timers := [none], keyUpdate := none }

def slot0 : Slot := ⟨true, some 1200, 12000, false, 0, 0, false, false, false, [none], ms⟩

def fired0 : Fired := ⟨(false, false, false), (false, false, false), [none], some ms, none⟩

/-- A packet at 0, two ack-eliciting packets at 10 and 20 ms: the deadline is at 40 ms. -/
def quiet : List Ev :=
  [.recv 0 [(.accepted env0 none [], false)],
   .send (10 * ms) (.ok env0) [(slot0, .sends env0 .short true)],
   .send (20 * ms) (.ok env0) [(slot0, .sends env0 .short true)]]

example : deadline (log (State.new false 60 env0) [] quiet) = some (40 * ms) := by
  decide +kernel

example : (run (State.new false 60 env0) (quiet ++ [.timeout (39 * ms) fired0])).timedOut =
    false ∧
  (run (State.new false 60 env0) (quiet ++ [.timeout (40 * ms) fired0])).timedOut = true := by
  decide +kernel

end Verif.Props.C49
