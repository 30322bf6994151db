import Verif.Props.C91

/-!
C92: draining lasts three probe timeouts.

A connection starts draining only when a CONNECTION_CLOSE is received or sent, and the
draining deadline is then exactly three probe timeouts away. Until a timeout is handled at
or after it (or a stateless reset arrives) the connection is not closed; the first timeout
handled at or after it closes it.
-/

namespace Verif.Props.C92
open Verif Verif.Life Verif.Frame
open Verif.Props.C90 (Later step_later over_iff final)
open Verif.Props.C91 (frames isClose)
open Verif.Props.C49 (env0 slot0 fired0)

/-- Why the draining deadline is `d` after a packet was received: a CONNECTION_CLOSE frame
with error `e` was processed, at `now`, with the probe timeout `p`. -/
def ByPeer (t : State) (d now : Nat) (l : List (Pkt × Bool)) : Prop :=
  ∃ e p, d = now + 3 * p ∧ t.peerErr.isSome = true ∧
    ∃ q ∈ l, ∃ env tls cl, (e, some p) ∈ cl ∧
      (q.1 = .accepted env tls cl ∨ ∃ c, q.1 = .failed env tls cl c)

theorem onClose_peer (now : Nat) : ∀ (l : List (CErr × Option Nat)) (s : State),
    (s.drain.isSome = true → s.peerErr.isSome = true) →
    ((onClose s now l).1.drain.isSome = true → (onClose s now l).1.peerErr.isSome = true) := by
  intro l
  induction l with
  | nil => intro s h; exact h
  | cons a l ih =>
    obtain ⟨e, p⟩ := a
    intro s h
    cases p with
    | none => intro _; rfl
    | some p =>
      simp only [onClose]
      exact ih _ fun _ => rfl

theorem close_drain (s : State) (a : Bool) (c : Nat) (r : Bytes) :
    (close s a c r).1.drain = s.drain ∧ (close s a c r).1.peerErr = s.peerErr := by
  rcases close_spec s a c r with e | ⟨_, _, er, e⟩
  · rw [e]; exact ⟨rfl, rfl⟩
  · rw [e]; dsimp only; split <;> exact ⟨rfl, rfl⟩

theorem received_drain (s : State) (now : Nat) :
    (s.received now).drain = s.drain ∧ (s.received now).peerErr = s.peerErr :=
  ⟨congrArg Core.drain (restartIdle_core s now), congrArg Core.peerErr (restartIdle_core s now)⟩

theorem recv_drain (now : Nat) : ∀ (l : List (Pkt × Bool)) (s : State) (d : Nat),
    s.drain = none → (recv s now l).1.drain = some d → ByPeer (recv s now l).1 d now l := by
  intro l
  induction l with
  | nil => intro s d h h'; rw [show (recv s now []).1 = s from rfl, h] at h'; simp at h'
  | cons x l ih =>
    obtain ⟨p, reset⟩ := x
    intro s d h h'
    simp only [recv] at h' ⊢
    have key : ∀ env tls cl d',
        (onClose { s with env := env, localErr := orErr tls none } now cl).1.drain = some d' →
        ∃ e p, d' = now + 3 * p ∧ (e, some p) ∈ cl ∧
          (onClose { s with env := env, localErr := orErr tls none } now cl).1.peerErr.isSome =
            true := by
      intro env tls cl d' hd
      obtain ⟨_, _, hsp⟩ := onClose_spec now cl { s with env := env, localErr := orErr tls none }
      have hp := onClose_peer now cl { s with env := env, localErr := orErr tls none }
        (fun hx => by rw [show ({ s with env := env, localErr := orErr tls none } : State).drain =
          s.drain from rfl, h] at hx; simp at hx) (by rw [hd]; rfl)
      rcases hsp with hsp | ⟨e, q, hm, hsp⟩
      · rw [hsp] at hd; rw [show ({ s with env := env, localErr := orErr tls none } : State).drain =
          s.drain from rfl, h] at hd; simp at hd
      · rw [hsp] at hd
        exact ⟨e, q, (Option.some.inj hd).symm, hm, hp⟩
    rcases recvSingle_cases s now p with e | ⟨_, _, e⟩
    · rw [e] at h'
      dsimp only at h'
      split at h'
      · rw [show s.markClosed.drain = s.drain from rfl, h] at h'; simp at h'
      · rw [h] at h'; simp at h'
    · rcases e with ⟨env, tls, cl, code, hp, c, e⟩ | ⟨env, tls, cl, hp, e⟩
      · rw [e] at h' ⊢
        dsimp only at h' ⊢
        rw [(close_drain _ _ _ _).1] at h'
        obtain ⟨er, q, hd, hm, hpe⟩ := key env tls cl d h'
        exact ⟨er, q, hd, by rw [(close_drain _ _ _ _).2]; exact hpe, _, List.mem_cons_self, env,
          tls, cl, hm, Or.inr ⟨code, hp⟩⟩
      · rcases e with ⟨_, e⟩ | ⟨_, c, e⟩
        · rw [e] at h' ⊢
          dsimp only at h' ⊢
          cases hr : (onClose { s with env := env, localErr := orErr tls none } now
              cl).1.drain with
          | none =>
            have h0 := (received_drain (onClose { s with env := env, localErr := orErr tls none }
              now cl).1 now).1.trans hr
            obtain ⟨er, q, hd, hpe, y, hy, hrest⟩ := ih _ d h0 h'
            exact ⟨er, q, hd, hpe, y, List.mem_cons_of_mem _ hy, hrest⟩
          | some d' =>
            obtain ⟨er, q, hd, hm, hpe⟩ := key env tls cl d' hr
            obtain ⟨g1, g2⟩ := received_drain
              (onClose { s with env := env, localErr := orErr tls none } now cl).1 now
            have hov : ((onClose { s with env := env, localErr := orErr tls none } now
                cl).1.received now).over = true := by
              rw [over_iff]; exact Or.inr ⟨d', g1.trans hr⟩
            have hl := C90.recv_later now l
              ((onClose { s with env := env, localErr := orErr tls none } now cl).1.received now)
            have h2 := hl.drain d' (g1.trans hr)
            rw [h'] at h2
            have h3 := hl.peerErr hov
            refine ⟨er, q, (Option.some.inj h2).trans hd, by rw [h3, g2]; exact hpe, _,
              List.mem_cons_self, env, tls, cl, hm, Or.inl hp⟩
        · rw [e] at h' ⊢
          dsimp only at h' ⊢
          rw [(close_drain _ _ _ _).1] at h'
          obtain ⟨er, q, hd, hm, hpe⟩ := key env tls cl d h'
          exact ⟨er, q, hd, by rw [(close_drain _ _ _ _).2]; exact hpe, _, List.mem_cons_self,
            env, tls, cl, hm, Or.inl hp⟩

/-- Why the draining deadline is `d` after sending: a CONNECTION_CLOSE was sent at `now` on
a path with the probe timeout `p`. -/
def ByUs (fr : List SFrame) (d now : Nat) (l : List (Slot × Free)) : Prop :=
  (∃ e, SFrame.close e ∈ fr) ∧ ∃ y ∈ l, d = now + 3 * y.1.pto

theorem sendSingle_drain (s : State) (now : Nat) (x : Slot) (f : Free) (h : s.drain = none) :
    (sendSingle s now x f).1.drain = none ∨
    (∃ e, (sendSingle s now x f).1.drain = some (now + 3 * x.pto) ∧
      SFrame.close e ∈ frames [(sendSingle s now x f).2]) := by
  unfold sendSingle
  split
  · exact Or.inl h
  · split
    · rename_i e hl
      split
      · exact Or.inl h
      · exact Or.inl h
      · rename_i ty _
        rcases closingPacket_spec s e now x ty with ⟨v, h1, _⟩ |
          ⟨v, ack, n, chal, c, el, h1, h2, _⟩
        · left; rw [h1]; exact h
        · rw [h1, h2]
          have e1 := congrArg Core.drain (finishSend_core
            { s with env := v, drain := drainAfter s now x c } now ty el)
          cases c with
          | false => left; exact e1.trans h
          | true =>
            right
            refine ⟨e, e1, ?_⟩
            simp [frames, closingFrames]
    · split
      · exact Or.inl h
      · exact Or.inl h
      · rename_i env ty el
        left
        exact (congrArg Core.drain (finishSend_core { s with env := env } now ty el)).trans h

theorem sendLoop_drain (now : Nat) : ∀ (l : List (Slot × Free)) (s : State) (d : Nat),
    s.drain = none → (sendLoop s now l).1.drain = some d →
    ByUs (frames (sendLoop s now l).2) d now l := by
  intro l
  induction l with
  | nil => intro s d h h'; rw [show (sendLoop s now []).1 = s from rfl, h] at h'; simp at h'
  | cons y l ih =>
    obtain ⟨x, f⟩ := y
    intro s d h h'
    have hk := sendSingle_drain s now x f h
    simp only [sendLoop] at h' ⊢
    obtain ⟨s', r, hr⟩ : ∃ s' r, sendSingle s now x f = (s', r) := ⟨_, _, rfl⟩
    rw [hr] at hk h' ⊢
    dsimp only at hk
    have base : s'.drain = some d → ByUs (frames [r]) d now ((x, f) :: l) := by
      intro hd
      rcases hk with hk | ⟨e, hk, hm⟩
      · rw [hk] at hd; simp at hd
      · rw [hk] at hd
        exact ⟨⟨e, hm⟩, _, List.mem_cons_self, (Option.some.inj hd).symm⟩
    cases r with
    | sent ty fr =>
      dsimp only at h' ⊢
      split at h'
      · rename_i hty; rw [if_pos hty]; exact base h'
      · rename_i hty; rw [if_neg hty]
        dsimp only at h' ⊢
        have e : frames (SRes.sent ty fr :: (sendLoop s' now l).2) =
            frames [SRes.sent ty fr] ++ frames (sendLoop s' now l).2 := by
          simp [frames]
        rw [e]
        cases hd : s'.drain with
        | none =>
          obtain ⟨⟨er, hm⟩, z, hz, hzd⟩ := ih s' d hd h'
          exact ⟨⟨er, List.mem_append_right _ hm⟩, z, List.mem_cons_of_mem _ hz, hzd⟩
        | some d' =>
          have h2 := (C90.sendLoop_later now l s').drain d' hd
          rw [h'] at h2
          obtain ⟨⟨er, hm⟩, hz⟩ := base (hd.trans h2.symm)
          exact ⟨⟨er, List.mem_append_left _ hm⟩, hz⟩
    | done => exact base h'
    | err => exact base h'
    | panic => exact base h'

/-- **Draining starts with a CONNECTION_CLOSE received or sent, and its deadline is three
probe timeouts after that.** -/
theorem starts {s : State} {e : Ev} {d : Nat} (h : s.drain = none)
    (h' : (step s e).drain = some d) :
    (∃ now l, e = .recv now l ∧ ByPeer (step s e) d now l) ∨
    (∃ now hs l, e = .send now hs l ∧ ByUs (frames (out s e)) d now l) := by
  cases e with
  | recv now l => exact Or.inl ⟨now, l, rfl, recv_drain now l s d h h'⟩
  | send now hs l =>
    right
    refine ⟨now, hs, l, rfl, ?_⟩
    simp only [step, out, send] at h' ⊢
    by_cases c1 : (s.closed || s.drain.isSome) = true
    · rw [if_pos c1] at h'; rw [h] at h'; simp at h'
    · rw [if_neg c1] at h' ⊢
      by_cases c2 : s.localErr.isSome = true
      · rw [if_pos c2] at h' ⊢; exact sendLoop_drain now l s d h h'
      · rw [if_neg c2] at h' ⊢
        cases hs with
        | ok env => exact sendLoop_drain now l { s with env := env } d h h'
        | failed env tls => exact absurd (h.symm.trans h') (by simp)
  | timeout now t =>
    simp only [step, onTimeout] at h'
    rw [if_neg (by rw [h]; simp)] at h'
    split at h'
    · exact absurd (h.symm.trans h') (by simp)
    · unfold State.needPath at h'
      split at h' <;> exact absurd (h.symm.trans h') (by simp)
  | close a c r =>
    simp only [step] at h'
    rw [(close_drain s a c r).1, h] at h'; simp at h'
  | api p n ts => exact absurd (h.symm.trans h') (by simp)

/-- A run of a draining connection that does not close it: no stateless reset and no timeout
handled at or after the deadline. -/
def Waits (d : Nat) : Ev → Prop
  | .recv _ l => ∀ p r, l ≠ (p, true) :: r
  | .timeout now _ => now < d
  | _ => True

/-- **Until the deadline a draining connection stays open; the first timeout handled at or
after it closes the connection.** -/
theorem lasts {s : State} {d : Nat} (hd : s.drain = some d) (hc : s.closed = false)
    (evs : List Ev) (hw : ∀ e ∈ evs, Waits d e) :
    (run s evs).closed = false ∧
      ∀ now t, d ≤ now → (step (run s evs) (.timeout now t)).closed = true := by
  have key : ∀ (evs : List Ev) (s : State), s.drain = some d → s.closed = false →
      (∀ e ∈ evs, Waits d e) → (run s evs).closed = false := by
    intro evs
    induction evs with
    | nil => intro s _ hc _; exact hc
    | cons e evs ih =>
      intro s hd hc hw
      have ho : s.over = true := (over_iff s).2 (Or.inr ⟨d, hd⟩)
      refine ih (step s e) ((step_later s e).drain d hd) ?_
        (fun x hx => hw x (List.mem_cons_of_mem _ hx))
      have hwe := hw e List.mem_cons_self
      cases e with
      | recv now l =>
        rcases C90.deaf (Or.inl ho) now l with h | ⟨_, p, r, hl⟩
        · simp only [step]; rw [h]; exact hc
        · exact absurd hl (hwe p r)
      | send now hs l => simp only [step]; rw [send_over ho]; exact hc
      | timeout now t =>
        simp only [step, onTimeout]
        rw [if_pos (by rw [hd]; rfl), hd]
        have : expired now (some d) = false := by
          simp only [Waits] at hwe
          simp [expired]; exact hwe
        rw [this]
        exact hc
      | close a c r => simp only [step]; rw [close_over ho]; exact hc
      | api p n ts => exact hc
  refine ⟨key evs s hd hc hw, fun now t hn => ?_⟩
  have h2 := (final s evs).drain d hd
  simp only [step, onTimeout]
  rw [if_pos (by rw [h2]; rfl), h2]
  have : expired now (some d) = true := by simp [expired, hn]
  rw [this]
  rfl

/-- The peer's CONNECTION_CLOSE at 0 with a probe timeout of 1 ms: a timeout 1 ns before
three milliseconds does nothing, one at three milliseconds closes. -/
example :
    let s := run (State.new true 60 env0)
      [.recv 0 [(.accepted env0 none [(⟨true, 7, []⟩, some ms)], false)]]
    (run s [.timeout (3 * ms - 1) fired0]).closed = false ∧
    (run s [.timeout (3 * ms) fired0]).closed = true ∧
    (run s [.timeout (3 * ms) fired0]).timedOut = false := by
  decide +kernel

end Verif.Props.C92
