import Verif.Props.C94

/-!
C95: the cause of the end is logged.

The claim is false. The cause is written to the qlog by `mark_closed()`, and `on_timeout()`
sets the flag for an idle timeout only after that: no run ever logs an idle timeout
(`never_idle`), although connections do time out (`false_idle`). And whatever ended a
connection that was not established is logged as a handshake timeout, even an error the
peer sent (`false_remote`).

`logged_partial`: exactly one cause is logged, when the connection is closed, it never
changes, and a remote or local error logged is the one `peer_error()` or `local_error()`
returns from then on.
-/

namespace Verif.Props.C95
open Verif Verif.Life Verif.Frame
open Verif.Props.C49 (env0 slot0 fired0)
open Verif.Props.C90 (step_later over_iff)

/-- Not ended: nothing logged, not timed out. -/
structure Going (s : State) : Prop where
  closed : s.closed = false
  cause : s.cause = none
  timedOut : s.timedOut = false

theorem Going.of_core {s t : State} (h : Going s) (e : t.core = s.core) : Going t :=
  ⟨(congrArg Core.closed e).trans h.closed, (congrArg Core.cause e).trans h.cause,
    (congrArg Core.timedOut e).trans h.timedOut⟩

theorem onClose_going {s : State} (h : Going s) (now : Nat) (l : List (CErr × Option Nat)) :
    Going (onClose s now l).1 := by
  rw [(onClose_spec now l s).1]
  exact ⟨h.closed, h.cause, h.timedOut⟩

theorem recvSingle_going {s : State} (h : Going s) (now : Nat) (p : Pkt) :
    Going (recvSingle s now p).1 := by
  unfold recvSingle
  split
  · exact h
  · split
    · exact h
    · cases p with
      | dropped => exact h
      | failed env tls closes code =>
        exact onClose_going (s := { s with env := env, localErr := orErr tls s.localErr })
          ⟨h.closed, h.cause, h.timedOut⟩ now closes
      | accepted env tls closes =>
        have hg := onClose_going (s := { s with env := env, localErr := orErr tls s.localErr })
          ⟨h.closed, h.cause, h.timedOut⟩ now closes
        dsimp only
        split
        · unfold State.received
          obtain ⟨h1, h2, h3⟩ := hg.of_core (restartIdle_core _ now)
          exact ⟨h1, h2, h3⟩
        · exact hg

/-- A call that leaves the connection going, or ends it. -/
inductive Ends (t : State) : Prop where
  | going (h : Going t)
  | closed (u : State) (h : Going u) (e : t = u.markClosed)
  | timedOut (u : State) (h : Going u) (e : t = { u.markClosed with timedOut := true })

theorem close_ends {s : State} (h : Going s) (a : Bool) (c : Nat) (r : Bytes) :
    Ends (close s a c r).1 := by
  rcases close_spec s a c r with e | ⟨_, _, er, e⟩
  · rw [e]; exact .going h
  · rw [e]
    dsimp only
    have hg : Going { s with localErr := some er } := ⟨h.closed, h.cause, h.timedOut⟩
    split
    · exact .closed _ hg rfl
    · exact .going hg

theorem recv_ends (now : Nat) : ∀ (l : List (Pkt × Bool)) {s : State}, Going s →
    Ends (recv s now l).1 := by
  intro l
  induction l with
  | nil => intro s h; exact .going h
  | cons x l ih =>
    obtain ⟨p, reset⟩ := x
    intro s h
    have h1 := recvSingle_going h now p
    simp only [recv]
    obtain ⟨s', r, hr⟩ : ∃ s' r, recvSingle s now p = (s', r) := ⟨_, _, rfl⟩
    rw [hr] at h1 ⊢
    cases r with
    | ok => exact ih h1
    | done =>
      dsimp only
      split
      · exact .closed _ h1 rfl
      · exact .going h1
    | err c => exact close_ends h1 false c []

theorem sendSingle_going {s : State} (h : Going s) (now : Nat) (x : Slot) (f : Free) :
    Going (sendSingle s now x f).1 := by
  unfold sendSingle
  split
  · exact h
  · split
    · rename_i e _
      split
      · exact h
      · exact h
      · rename_i ty _
        rcases closingPacket_spec s e now x ty with ⟨v, h1, _⟩ | ⟨v, _, _, _, c, el, h1, _⟩
        · rw [h1]; exact ⟨h.closed, h.cause, h.timedOut⟩
        · rw [h1]
          exact Going.of_core (s := { s with env := v, drain := drainAfter s now x c })
            ⟨h.closed, h.cause, h.timedOut⟩ (finishSend_core _ now ty el)
    · split
      · exact ⟨h.closed, h.cause, h.timedOut⟩
      · exact ⟨h.closed, h.cause, h.timedOut⟩
      · rename_i env ty el
        exact Going.of_core (s := { s with env := env })
          ⟨h.closed, h.cause, h.timedOut⟩ (finishSend_core _ now ty el)

theorem sendLoop_going (now : Nat) : ∀ (l : List (Slot × Free)) {s : State}, Going s →
    Going (sendLoop s now l).1 := by
  intro l
  induction l with
  | nil => intro s h; exact h
  | cons y l ih =>
    obtain ⟨x, f⟩ := y
    intro s h
    have h1 := sendSingle_going h now x f
    simp only [sendLoop]
    obtain ⟨s', r, hr⟩ : ∃ s' r, sendSingle s now x f = (s', r) := ⟨_, _, rfl⟩
    rw [hr] at h1 ⊢
    cases r with
    | sent ty fr =>
      dsimp only
      split
      · exact h1
      · exact ih h1
    | done => exact h1
    | err => exact h1
    | panic => exact h1

theorem step_ends {s : State} (h : Going s) (e : Ev) : Ends (step s e) := by
  cases e with
  | recv now l => exact recv_ends now l h
  | send now hs l =>
    simp only [step, send]
    split
    · exact .going h
    · split
      · exact .going (sendLoop_going now l h)
      · split
        · exact .going (sendLoop_going now l ⟨h.closed, h.cause, h.timedOut⟩)
        · exact .going ⟨h.closed, h.cause, h.timedOut⟩
  | timeout now t =>
    simp only [step, onTimeout]
    split
    · split
      · exact .closed _ h rfl
      · exact .going h
    · split
      · exact .timedOut _ h rfl
      · have hg : Going { s with env := (s.env.expireKeys now).fire now t } :=
          ⟨h.closed, h.cause, h.timedOut⟩
        unfold State.needPath
        split
        · exact .going hg
        · exact .going ⟨h.closed, h.cause, h.timedOut⟩
        · exact .closed _ hg rfl
  | close a c r => exact close_ends h a c r
  | api p n ts => exact .going ⟨h.closed, h.cause, h.timedOut⟩

/-- What the log says is right as far as it goes. -/
structure Ended (s : State) (c : Cause) : Prop where
  closed : s.closed = true
  cause : s.cause = some c
  notIdle : c ≠ .idleTimeout
  remote : ∀ e, c = .remote e → s.peerErr = some e ∧ s.localErr = none
  locally : ∀ e, c = .locally e → s.localErr = some e ∧ s.peerErr = none

theorem ended_markClosed {u : State} (h : Going u) : ∃ c, Ended u.markClosed c := by
  refine ⟨causeOf u.env.established u.timedOut u.peerErr u.localErr, rfl, ?_, ?_, ?_, ?_⟩
  · unfold State.markClosed; rw [h.cause]; rfl
  · unfold causeOf; rw [h.timedOut]
    cases u.env.established
    · simp
    · cases u.peerErr <;> cases u.localErr <;> simp
  · intro e he
    unfold causeOf at he; rw [h.timedOut] at he
    show u.peerErr = some e ∧ u.localErr = none
    cases hx : u.env.established
    · rw [hx] at he; simp at he
    · rw [hx] at he
      cases hp : u.peerErr <;> cases hl : u.localErr <;> rw [hp, hl] at he <;> simp at he
      simp [he]
  · intro e he
    unfold causeOf at he; rw [h.timedOut] at he
    show u.localErr = some e ∧ u.peerErr = none
    cases hx : u.env.established
    · rw [hx] at he; simp at he
    · rw [hx] at he
      cases hp : u.peerErr <;> cases hl : u.localErr <;> rw [hp, hl] at he <;> simp at he
      simp [he]

/-- After the end the log and the errors stay as they are. -/
theorem step_closed {s : State} (h : s.closed = true) (hc : s.cause ≠ none) (e : Ev) :
    (step s e).closed = true ∧ (step s e).cause = s.cause ∧
    (step s e).peerErr = s.peerErr ∧ (step s e).localErr = s.localErr := by
  have ho : s.over = true := by unfold State.over; rw [h]; rfl
  have hm : s.markClosed.cause = s.cause := by
    unfold State.markClosed
    dsimp only
    cases hx : s.cause with
    | none => exact absurd hx hc
    | some c => rfl
  cases e with
  | recv now l =>
    simp only [step]
    rcases C90.deaf (Or.inl ho) now l with g | ⟨g, _⟩
    · rw [g]; exact ⟨h, rfl, rfl, rfl⟩
    · rw [g]; exact ⟨rfl, hm, rfl, rfl⟩
  | send now hs l => simp only [step]; rw [send_over ho]; exact ⟨h, rfl, rfl, rfl⟩
  | timeout now t =>
    simp only [step, onTimeout]
    split
    · split
      · exact ⟨rfl, hm, rfl, rfl⟩
      · exact ⟨h, rfl, rfl, rfl⟩
    · split
      · exact ⟨rfl, hm, rfl, rfl⟩
      · unfold State.needPath
        split
        · exact ⟨h, rfl, rfl, rfl⟩
        · exact ⟨h, rfl, rfl, rfl⟩
        · refine ⟨rfl, ?_, rfl, rfl⟩
          unfold State.markClosed
          dsimp only
          cases hx : s.cause with
          | none => exact absurd hx hc
          | some c => rfl
  | close a c r => simp only [step]; rw [close_over ho]; exact ⟨h, rfl, rfl, rfl⟩
  | api p n ts => exact ⟨h, rfl, rfl, rfl⟩

theorem Ended.step {s : State} {c : Cause} (h : Ended s c) (e : Ev) :
    Ended (step s e) c := by
  obtain ⟨h1, h2, h3, h4⟩ := step_closed h.closed (by rw [h.cause]; simp) e
  exact ⟨h1, h2.trans h.cause, h.notIdle, by rw [h3, h4]; exact h.remote,
    by rw [h3, h4]; exact h.locally⟩

theorem Ended.run {s : State} {c : Cause} (h : Ended s c) (evs : List Ev) :
    Ended (run s evs) c := by
  induction evs generalizing s with
  | nil => exact h
  | cons e evs ih => exact ih (h.step e)

theorem run_ends {s : State} (h : Going s) (evs : List Ev) :
    Going (run s evs) ∨ ∃ c, Ended (run s evs) c := by
  induction evs generalizing s with
  | nil => exact Or.inl h
  | cons e evs ih =>
    rcases step_ends h e with g | ⟨u, g, eq⟩ | ⟨u, g, eq⟩
    · exact ih g
    · obtain ⟨c, hc⟩ := ended_markClosed g
      exact Or.inr ⟨c, (eq ▸ hc).run evs⟩
    · obtain ⟨c, hc⟩ := ended_markClosed g
      refine Or.inr ⟨c, Ended.run ?_ evs⟩
      rw [eq]
      exact ⟨hc.closed, hc.cause, hc.notIdle, hc.remote, hc.locally⟩

theorem new_going (isServer : Bool) (localIdle : Nat) (env : Env) :
    Going (State.new isServer localIdle env) := ⟨rfl, rfl, rfl⟩

/-- **What holds**: in every run a cause is logged exactly when the connection is closed; it
then stays the same; an error logged as the peer's is the one `peer_error()` returns, with
no local error, and the other way round; and a connection that is not closed has not
timed out. -/
theorem logged_partial (isServer : Bool) (localIdle : Nat) (env : Env) (evs : List Ev) :
    let s := run (State.new isServer localIdle env) evs
    (s.closed = false ∧ s.cause = none ∧ s.timedOut = false) ∨
    ∃ c, s.closed = true ∧ (∀ more, (run s more).cause = some c) ∧
      (∀ e, c = .remote e → s.peerErr = some e ∧ s.localErr = none) ∧
      (∀ e, c = .locally e → s.localErr = some e ∧ s.peerErr = none) := by
  intro s
  rcases run_ends (new_going isServer localIdle env) evs with h | ⟨c, h⟩
  · exact Or.inl ⟨h.closed, h.cause, h.timedOut⟩
  · exact Or.inr ⟨c, h.closed, fun more => (h.run more).cause, h.remote, h.locally⟩

/-- **No connection ever logs that it timed out.** -/
theorem never_idle (isServer : Bool) (localIdle : Nat) (env : Env) (evs : List Ev) :
    (run (State.new isServer localIdle env) evs).cause ≠ some .idleTimeout := by
  rcases run_ends (new_going isServer localIdle env) evs with h | ⟨c, h⟩
  · rw [h.cause]; simp
  · rw [h.cause]
    intro hx
    exact h.notIdle (Option.some.inj hx)

/-- An established connection that times out logs no cause. -/
theorem false_idle :
    let s := run (State.new true 60 env0)
      [.recv 0 [(.accepted env0 none [], false)], .timeout (30 * ms) fired0]
    s.closed = true ∧ s.timedOut = true ∧ s.cause = some .unknown := by
  decide +kernel

/-- An error sent by the peer during the handshake is logged as a handshake timeout. -/
theorem false_remote :
    let v := { env0 with established := false, confirmed := false }
    let s := run (State.new true 60 v)
      [.recv 0 [(.accepted v none [(⟨false, 2, []⟩, some 1)], false)], .timeout 3 fired0]
    s.closed = true ∧ s.peerErr = some ⟨false, 2, []⟩ ∧ s.timedOut = false ∧
      s.cause = some .handshakeTimeout := by
  decide +kernel

/-- An established connection closed by the peer logs the peer's error. -/
example :
    (run (State.new true 60 env0)
      [.recv 0 [(.accepted env0 none [(⟨true, 7, [1]⟩, some 1)], false)],
        .timeout 3 fired0]).cause = some (.remote ⟨true, 7, [1]⟩) := by
  decide +kernel

end Verif.Props.C95
