import Verif.Props.C95

/-!
C96: errors close the connection, and `close()` records what it was given.

`close_exact` says when `close()` succeeds and what follows. `failure_closes`: when `recv()`
returns an error, the connection is closed or draining or has a local error afterwards; the
local error is the one returned, unless TLS raised one in the same datagram or the peer
closed the connection. `pathless` : a timeout handled without a usable path closes it.
-/

namespace Verif.Props.C96
open Verif Verif.Life Verif.Frame
open Verif.Props.C49 (env0 slot0 fired0)

/-- What the peer will be told: application errors are hidden as long as the peer might not
have the keys to read them. -/
def recorded (s : State) (app : Bool) (code : Nat) (reason : Bytes) : CErr :=
  match app, s.env.established, s.env.earlyData with
  | true, false, false => ⟨false, 0x0c, []⟩
  | _, _, _ => ⟨app, code, reason⟩

/-- **When `close()` succeeds, and what it does then**: a connection that received nothing is
closed at once; nothing else changes. -/
theorem close_exact (s : State) (app : Bool) (code : Nat) (reason : Bytes) :
    ((close s app code reason).2 = true ↔
      s.closed = false ∧ s.drain = none ∧ s.localErr = none) ∧
    ((close s app code reason).2 = false → (close s app code reason).1 = s) ∧
    ((close s app code reason).2 = true →
      (close s app code reason).1 =
        { s with
          localErr := some (recorded s app code reason)
          closed := decide (s.recvCount = 0)
          cause := (close s app code reason).1.cause }) := by
  unfold close
  by_cases c1 : (s.closed || s.drain.isSome) = true
  · rw [if_pos c1]
    refine ⟨?_, fun _ => rfl, fun h => by simp at h⟩
    constructor
    · intro h; simp at h
    · rintro ⟨h1, h2, _⟩; rw [h1, h2] at c1; simp at c1
  · rw [if_neg c1]
    have h1 : s.closed = false := by
      cases h : s.closed with
      | false => rfl
      | true => rw [h] at c1; simp at c1
    have h2 : s.drain = none := by
      cases h : s.drain with
      | none => rfl
      | some d => rw [h] at c1; simp at c1
    by_cases c2 : s.localErr.isSome = true
    · rw [if_pos c2]
      refine ⟨?_, fun _ => rfl, fun h => by simp at h⟩
      constructor
      · intro h; simp at h
      · rintro ⟨_, _, h3⟩; rw [h3] at c2; simp at c2
    · rw [if_neg c2]
      have h3 : s.localErr = none := by simpa using c2
      refine ⟨⟨fun _ => ⟨h1, h2, h3⟩, fun _ => rfl⟩, fun h => by simp at h, fun _ => ?_⟩
      have hr : (if (app && !(s.env.established || s.env.earlyData)) = true
          then (⟨false, 0x0c, []⟩ : CErr) else ⟨app, code, reason⟩) =
          recorded s app code reason := by
        unfold recorded
        cases app <;> cases s.env.established <;> cases s.env.earlyData <;> rfl
      dsimp only
      rw [hr]
      by_cases c3 : s.recvCount = 0
      · rw [if_pos c3]
        simp [State.markClosed, c3]
      · rw [if_neg c3]
        simp [c3, h1]

/-- The error TLS raised while a packet was processed. -/
def tlsOf : Pkt → Option CErr
  | .dropped => none
  | .failed _ t _ _ => t
  | .accepted _ t _ => t

theorem onClose_fail (now : Nat) : ∀ (l : List (CErr × Option Nat)) (s : State),
    (onClose s now l).1.localErr = s.localErr := by
  intro l s
  rw [(onClose_spec now l s).1]

theorem recvSingle_err {s s' : State} {now c : Nat} {p : Pkt}
    (h : recvSingle s now p = (s', .err c)) :
    s'.localErr = none ∨ s'.localErr = tlsOf p := by
  unfold recvSingle at h
  split at h
  · simp at h
  · split at h
    · simp at h
    · rename_i hl
      have hl : s.localErr = none := by simpa using hl
      cases p with
      | dropped => simp at h
      | failed env tls closes code =>
        simp only [Prod.mk.injEq] at h
        rw [← h.1, onClose_fail]
        dsimp only
        rw [hl]
        cases tls with
        | none => exact Or.inl rfl
        | some e => exact Or.inr rfl
      | accepted env tls closes =>
        dsimp only at h
        split at h
        · simp at h
        · simp only [Prod.mk.injEq] at h
          rw [← h.1, onClose_fail]
          dsimp only
          rw [hl]
          cases tls with
          | none => exact Or.inl rfl
          | some e => exact Or.inr rfl

/-- **A failing `recv()` ends the connection.** -/
theorem failure_closes (now c : Nat) : ∀ (l : List (Pkt × Bool)) (s : State),
    (recv s now l).2 = some c →
    (recv s now l).1.over = true ∨ (recv s now l).1.localErr = some ⟨false, c, []⟩ ∨
      ∃ p b e, (p, b) ∈ l ∧ tlsOf p = some e ∧ (recv s now l).1.localErr = some e := by
  intro l
  induction l with
  | nil => intro s h; simp [recv] at h
  | cons x l ih =>
    obtain ⟨p, reset⟩ := x
    intro s h
    simp only [recv] at h ⊢
    obtain ⟨s', r, hr⟩ : ∃ s' r, recvSingle s now p = (s', r) := ⟨_, _, rfl⟩
    rw [hr] at h ⊢
    cases r with
    | ok =>
      rcases ih s' h with g | g | ⟨p', b, e, hm, g⟩
      · exact Or.inl g
      · exact Or.inr (Or.inl g)
      · exact Or.inr (Or.inr ⟨p', b, e, List.mem_cons_of_mem _ hm, g⟩)
    | done => dsimp only at h; simp at h
    | err c' =>
      dsimp only at h ⊢
      obtain rfl : c' = c := by simpa using h
      have hx := close_exact s' false c' []
      cases hcl : (close s' false c' []).2 with
      | true =>
        right; left
        rw [hx.2.2 hcl]
        rfl
      | false =>
        rw [hx.2.1 hcl]
        have hn : ¬(s'.closed = false ∧ s'.drain = none ∧ s'.localErr = none) := by
          rw [← hx.1, hcl]; simp
        by_cases ho : s'.over = true
        · exact Or.inl ho
        · right; right
          have h3 : s'.localErr ≠ none := by
            intro h3
            apply hn
            unfold State.over at ho
            refine ⟨?_, ?_, h3⟩
            · cases h : s'.closed with
              | false => rfl
              | true => rw [h] at ho; simp at ho
            · cases h : s'.drain with
              | none => rfl
              | some d => rw [h] at ho; simp at ho
          rcases recvSingle_err hr with h4 | h4
          · exact absurd h4 h3
          · cases he : s'.localErr with
            | none => exact absurd he h3
            | some e => exact ⟨p, reset, e, List.mem_cons_self, by rw [← h4, he], rfl⟩

/-- **A stateless reset in place of an undecipherable packet ends the connection.** -/
theorem reset_closes {s : State} (now : Nat) (l : List (Pkt × Bool)) :
    (recv s now ((.dropped, true) :: l)).1.closed = true := by
  have : recvSingle s now .dropped = (s, .done) := by
    unfold recvSingle; split
    · rfl
    · split <;> rfl
  simp only [recv]
  rw [this]
  rfl

/-- **A timeout handled without an active path, and with no other to take over, ends the
connection.** -/
theorem pathless {s : State} (hd : s.drain = none)
    (now : Nat) (t : Fired) (hp : ((s.env.expireKeys now).fire now t).pto = none)
    (hc : t.candidate = none) : (onTimeout s now t).closed = true := by
  unfold onTimeout
  rw [if_neg (by rw [hd]; simp)]
  split
  · rfl
  · unfold State.needPath
    rw [hp, hc]
    rfl

/-- A frame error while established: PROTOCOL_VIOLATION is recorded. -/
example :
    (recv { State.new true 60 env0 with recvCount := 1 } 5
      [(.accepted env0 none [], false), (.failed env0 none [] 0x0a, false)]).1.localErr =
    some ⟨false, 0x0a, []⟩ := by decide +kernel

/-- An application error before the handshake is complete is hidden. -/
example :
    (close { State.new true 60 { env0 with established := false } with recvCount := 1 }
      true 7 [1]).1.localErr = some ⟨false, 0x0c, []⟩ := by decide +kernel

end Verif.Props.C96
