import Verif.Props.C49

/-!
C90: the end of a connection is final.

In every run: `is_closed()` and `is_draining()` never go back to false and the draining
deadline never moves; `local_error()` never changes once set, and neither does
`peer_error()` once the connection is closed or draining; from then on nothing is sent, no
packet is processed and `close()` does nothing.
-/

namespace Verif.Props.C90
open Verif Verif.Life Verif.Frame
open Verif.Props.C49 (run_append env0 slot0 fired0)

/-- What is settled in state `t` after state `s`. -/
structure Later (s t : State) : Prop where
  closed : s.closed = true → t.closed = true
  drain : ∀ d, s.drain = some d → t.drain = some d
  localErr : ∀ e, s.localErr = some e → t.localErr = some e
  peerErr : s.over = true → t.peerErr = s.peerErr
  recvCount : s.over = true ∨ s.localErr ≠ none → t.recvCount = s.recvCount
  timedOut : s.timedOut = true → t.timedOut = true

theorem Later.refl (s : State) : Later s s :=
  ⟨id, fun _ => id, fun _ => id, fun _ => rfl, fun _ => rfl, id⟩

theorem over_iff (s : State) : s.over = true ↔ s.closed = true ∨ ∃ d, s.drain = some d := by
  unfold State.over
  rw [Bool.or_eq_true, Option.isSome_iff_exists]

theorem Later.over {s t : State} (h : Later s t) (ho : s.over = true) : t.over = true := by
  rw [over_iff] at ho ⊢
  rcases ho with ho | ⟨d, ho⟩
  · exact Or.inl (h.closed ho)
  · exact Or.inr ⟨d, h.drain d ho⟩

theorem Later.trans {s t u : State} (h : Later s t) (h' : Later t u) : Later s u where
  closed := fun x => h'.closed (h.closed x)
  drain := fun d x => h'.drain d (h.drain d x)
  localErr := fun e x => h'.localErr e (h.localErr e x)
  peerErr := fun x => (h'.peerErr (h.over x)).trans (h.peerErr x)
  recvCount := fun x => by
    refine (h'.recvCount ?_).trans (h.recvCount x)
    rcases x with x | x
    · exact Or.inl (h.over x)
    · right
      cases he : s.localErr with
      | none => exact absurd he x
      | some e => rw [h.localErr e he]; simp
  timedOut := fun x => h'.timedOut (h.timedOut x)

/-- States with the same settled fields. -/
theorem Later.of_core {s t : State} (h : t.core = s.core) : Later s t := by
  have c1 : t.closed = s.closed := congrArg Core.closed h
  have c2 : t.drain = s.drain := congrArg Core.drain h
  have c3 : t.localErr = s.localErr := congrArg Core.localErr h
  have c4 : t.peerErr = s.peerErr := congrArg Core.peerErr h
  have c5 : t.recvCount = s.recvCount := congrArg Core.recvCount h
  have c6 : t.timedOut = s.timedOut := congrArg Core.timedOut h
  exact ⟨by rw [c1]; exact id, by rw [c2]; exact fun _ => id, by rw [c3]; exact fun _ => id,
    fun _ => c4, fun _ => c5, by rw [c6]; exact id⟩

theorem Later.markClosed (s : State) : Later s s.markClosed :=
  ⟨fun _ => rfl, fun _ => id, fun _ => id, fun _ => rfl, fun _ => rfl, id⟩

theorem Later.close (s : State) (a : Bool) (c : Nat) (r : Bytes) :
    Later s (Life.close s a c r).1 := by
  rcases close_spec s a c r with e | ⟨_, hl, er, e⟩
  · rw [e]; exact Later.refl s
  · rw [e]
    have h1 : Later s { s with localErr := some er } :=
      ⟨id, fun _ => id, fun e' h => by rw [hl] at h; simp at h, fun _ => rfl,
        fun _ => rfl, id⟩
    dsimp only
    split
    · exact h1.trans (Later.markClosed _)
    · exact h1

/-- In a state where nothing is settled, everything may change. -/
theorem Later.of_fresh {s t : State} (h : s.over = false) (h' : s.localErr = none)
    (ht : t.timedOut = s.timedOut) : Later s t := by
  have n1 : ¬(s.closed = true ∨ ∃ d, s.drain = some d) := by
    rw [← over_iff, h]; simp
  refine ⟨fun x => absurd (Or.inl x) n1, fun d x => absurd (Or.inr ⟨d, x⟩) n1,
    fun e x => by rw [h'] at x; simp at x, fun x => by rw [h] at x; simp at x, fun x => ?_,
    by rw [ht]; exact id⟩
  rcases x with x | x
  · rw [h] at x; simp at x
  · exact absurd h' x

theorem recv_later (now : Nat) (l : List (Pkt × Bool)) (s : State) :
    Later s (recv s now l).1 := by
  cases ho : s.over with
  | true =>
    cases l with
    | nil => exact Later.refl s
    | cons x l =>
      obtain ⟨p, reset⟩ := x
      simp only [recv]
      rw [recvSingle_over ho]
      dsimp only
      split
      · exact Later.markClosed s
      · exact Later.refl s
  | false =>
    cases hl : s.localErr with
    | none => exact Later.of_fresh ho hl (C49.recv_timedOut now l s)
    | some e =>
      cases l with
      | nil => exact Later.refl s
      | cons x l =>
        obtain ⟨p, reset⟩ := x
        simp only [recv]
        rw [recvSingle_closing (by rw [hl]; rfl)]
        dsimp only
        split
        · exact Later.markClosed s
        · exact Later.refl s

theorem sendSingle_later (s : State) (now : Nat) (x : Slot) (f : Free) :
    Later s (sendSingle s now x f).1 := by
  unfold sendSingle
  split
  · exact Later.refl s
  · rename_i hd
    have hd : s.drain = none := by simpa using hd
    split
    · rename_i e _
      split
      · exact Later.refl s
      · exact Later.refl s
      · rename_i ty _
        rcases closingPacket_spec s e now x ty with ⟨v, h1, _⟩ | ⟨v, _, _, _, c, el, h1, _⟩
        · rw [h1]; exact Later.of_core rfl
        · rw [h1]
          refine Later.trans ?_ (Later.of_core (finishSend_core _ now ty el))
          exact ⟨id, fun d h => by rw [hd] at h; simp at h, fun _ => id, fun _ => rfl,
            fun _ => rfl, id⟩
    · split
      · exact Later.of_core rfl
      · exact Later.of_core rfl
      · rename_i env ty el
        refine Later.trans ?_ (Later.of_core (finishSend_core _ now ty el))
        exact Later.of_core rfl

theorem sendLoop_later (now : Nat) : ∀ (l : List (Slot × Free)) (s : State),
    Later s (sendLoop s now l).1 := by
  intro l
  induction l with
  | nil => intro s; exact Later.refl s
  | cons y l ih =>
    obtain ⟨x, f⟩ := y
    intro s
    have hk := sendSingle_later s now x f
    simp only [sendLoop]
    obtain ⟨s', r, hr⟩ : ∃ s' r, sendSingle s now x f = (s', r) := ⟨_, _, rfl⟩
    rw [hr] at hk ⊢
    cases r with
    | sent ty fr =>
      dsimp only
      split
      · exact hk
      · exact hk.trans (ih s')
    | done => exact hk
    | err => exact hk
    | panic => exact hk

theorem step_later (s : State) (e : Ev) : Later s (step s e) := by
  cases e with
  | recv now l => exact recv_later now l s
  | send now hs l =>
    simp only [step, send]
    split
    · exact Later.refl s
    · rename_i ho
      split
      · exact sendLoop_later now l s
      · rename_i hl
        have hl : s.localErr = none := by simpa using hl
        split
        · rename_i env
          exact Later.trans (t := { s with env := env }) (Later.of_core rfl)
            (sendLoop_later now l _)
        · exact Later.of_fresh (by simpa [State.over] using ho) hl rfl
  | timeout now t =>
    simp only [step, onTimeout]
    split
    · split
      · exact Later.markClosed s
      · exact Later.refl s
    · split
      · exact (Later.markClosed s).trans
          ⟨id, fun _ => id, fun _ => id, fun _ => rfl, fun _ => rfl, fun _ => rfl⟩
      · unfold State.needPath
        split
        · exact Later.of_core rfl
        · exact Later.of_core rfl
        · exact Later.trans (t := { s with env := (s.env.expireKeys now).fire now t })
            (Later.of_core rfl) (Later.markClosed _)
  | close a c r => exact Later.close s a c r
  | api p n ts => exact Later.of_core rfl

/-- **Nothing settled is ever undone**: closed, draining and its deadline, the local error,
the time-out flag; and once closed or draining the peer's error and the number of packets
processed stay as they are. -/
theorem final (s : State) (evs : List Ev) : Later s (run s evs) := by
  induction evs generalizing s with
  | nil => exact Later.refl s
  | cons e evs ih => exact (step_later s e).trans (ih _)

/-- **Once closed or draining nothing is sent.** -/
theorem silent {s : State} (h : s.over = true) (evs : List Ev) : sent s evs = [] := by
  induction evs generalizing s with
  | nil => rfl
  | cons e evs ih =>
    simp only [sent]
    rw [ih ((step_later s e).over h), List.append_nil]
    cases e with
    | send now hs l => simp only [out]; rw [send_over h]
    | _ => rfl

/-- Once closed or draining, or with a local error set, packets received change nothing,
except that a stateless reset closes the connection at once. -/
theorem deaf {s : State} (h : s.over = true ∨ s.localErr.isSome = true) (now : Nat)
    (l : List (Pkt × Bool)) :
    (recv s now l).1 = s ∨
      ((recv s now l).1 = s.markClosed ∧ ∃ p rest, l = (p, true) :: rest) := by
  cases l with
  | nil => exact Or.inl rfl
  | cons x l =>
    obtain ⟨p, reset⟩ := x
    simp only [recv]
    have e : recvSingle s now p = (s, .done) := by
      rcases h with h | h
      · exact recvSingle_over h now p
      · exact recvSingle_closing h now p
    rw [e]
    cases reset with
    | true => exact Or.inr ⟨rfl, p, l, rfl⟩
    | false => exact Or.inl rfl

/-- The peer closes at 0; a later packet and an error by the application change nothing. -/
example :
    let e : CErr := ⟨true, 7, [1]⟩
    let s := run (State.new true 60 env0)
      [.recv 0 [(.accepted env0 none [(e, some ms)], false)],
       .recv 5 [(.accepted env0 none [(⟨false, 1, []⟩, some ms)], false)],
       .close true 9 [], .send 6 (.ok env0) [(slot0, .sends env0 .short true)]]
    s.peerErr = some e ∧ s.drain = some (3 * ms) ∧ s.localErr = none ∧ s.recvCount = 1 := by
  decide +kernel

end Verif.Props.C90
