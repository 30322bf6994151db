import Verif.Life.Model

/-! What each function of `Life/Model.lean` leaves unchanged. -/

namespace Verif.Life
open Verif Verif.Frame

/-- The fields that decide over the life of the connection, without those of the idle
timer and the surroundings. -/
structure Core where
  closed : Bool
  drain : Option Nat
  localErr : Option CErr
  peerErr : Option CErr
  timedOut : Bool
  recvCount : Nat
  cause : Option Cause
  isServer : Bool
  localIdle : Nat
  deriving DecidableEq

def State.core (s : State) : Core :=
  ⟨s.closed, s.drain, s.localErr, s.peerErr, s.timedOut, s.recvCount, s.cause, s.isServer,
    s.localIdle⟩

theorem restartIdle_core (s : State) (now : Nat) : (s.restartIdle now).core = s.core := by
  unfold State.restartIdle; split <;> rfl

theorem restartIdle_aeSent (s : State) (now : Nat) :
    (s.restartIdle now).aeSent = s.aeSent := by
  unfold State.restartIdle; split <;> rfl

theorem restartIdle_env (s : State) (now : Nat) : (s.restartIdle now).env = s.env := by
  unfold State.restartIdle; split <;> rfl

theorem finishSend_core (s : State) (now : Nat) (ty : PktType) (el : Bool) :
    (s.finishSend now ty el).core = s.core := by
  unfold State.finishSend
  dsimp only
  by_cases h1 : (!s.isServer && ty == .handshake) = true
  · rw [if_pos h1]
    by_cases h2 : (el && !s.aeSent) = true
    · rw [if_pos h2]
      exact restartIdle_core { s with env := { s.env with initial := s.env.initial.drop } } now
    · rw [if_neg h2]; rfl
  · rw [if_neg h1]
    by_cases h2 : (el && !s.aeSent) = true
    · rw [if_pos h2]; exact restartIdle_core s now
    · rw [if_neg h2]; rfl

/-- What `onClose` does to the draining timer and the peer's error. -/
theorem onClose_spec (now : Nat) : ∀ (l : List (CErr × Option Nat)) (s : State),
    (onClose s now l).1 = { s with peerErr := (onClose s now l).1.peerErr,
                                   drain := (onClose s now l).1.drain } ∧
    ((l = [] → (onClose s now l).1 = s ∧ (onClose s now l).2 = true) ∧
     (l ≠ [] → ∃ e p, (e, p) ∈ l ∧ (onClose s now l).1.peerErr = some e)) ∧
    ((onClose s now l).1.drain = s.drain ∨
      ∃ e p, (e, some p) ∈ l ∧ (onClose s now l).1.drain = some (now + 3 * p)) := by
  intro l
  induction l with
  | nil => intro s; exact ⟨rfl, ⟨fun _ => ⟨rfl, rfl⟩, fun h => absurd rfl h⟩, Or.inl rfl⟩
  | cons a l ih =>
    obtain ⟨e, p⟩ := a
    intro s
    cases p with
    | none =>
      refine ⟨rfl, ⟨fun h => by simp at h, fun _ => ⟨e, none, by simp, rfl⟩⟩, Or.inl rfl⟩
    | some p =>
      simp only [onClose]
      obtain ⟨h1, ⟨h2, h3⟩, h4⟩ := ih { s with peerErr := some e, drain := some (now + 3 * p) }
      refine ⟨?_, ⟨fun h => by simp at h, fun _ => ?_⟩, Or.inr ?_⟩
      · rw [h1]
      · by_cases hl : l = []
        · rw [(h2 hl).1]; exact ⟨e, some p, by simp, rfl⟩
        · obtain ⟨e', p', hm, he⟩ := h3 hl
          exact ⟨e', p', List.mem_cons_of_mem _ hm, he⟩
      · rcases h4 with h4 | ⟨e', p', hm, he⟩
        · exact ⟨e, p, by simp, h4⟩
        · exact ⟨e', p', List.mem_cons_of_mem _ hm, he⟩

/-- A successful pass over close frames sets the draining timer if there is one. -/
theorem onClose_drain (now : Nat) : ∀ (l : List (CErr × Option Nat)) (s : State),
    (onClose s now l).2 = true → l ≠ [] → (onClose s now l).1.drain.isSome = true := by
  intro l
  induction l with
  | nil => intro s _ h; exact absurd rfl h
  | cons a l ih =>
    obtain ⟨e, p⟩ := a
    intro s h _
    cases p with
    | none => simp [onClose] at h
    | some p =>
      simp only [onClose] at h ⊢
      by_cases hl : l = []
      · subst hl; rfl
      · exact ih _ h hl

/-- A state that takes part in nothing any more. -/
def State.over (s : State) : Bool := s.closed || s.drain.isSome

theorem recvSingle_over {s : State} (h : s.over = true) (now : Nat) (p : Pkt) :
    recvSingle s now p = (s, .done) := by
  unfold State.over at h; unfold recvSingle; rw [if_pos h]

theorem recvSingle_closing {s : State} (h : s.localErr.isSome = true) (now : Nat) (p : Pkt) :
    recvSingle s now p = (s, .done) := by
  unfold recvSingle
  split
  · rfl
  · rfl

theorem send_over {s : State} (h : s.over = true) (now : Nat) (hs : Hs)
    (l : List (Slot × Free)) : send s now hs l = (s, []) := by
  unfold State.over at h; unfold send; rw [if_pos h]

theorem close_over {s : State} (h : s.over = true) (a : Bool) (c : Nat) (r : Bytes) :
    close s a c r = (s, false) := by
  unfold State.over at h; unfold close; rw [if_pos h]

theorem close_closing {s : State} (h : s.localErr.isSome = true) (a : Bool) (c : Nat)
    (r : Bytes) : close s a c r = (s, false) := by
  unfold close
  split
  · rfl
  · rfl

/-- `close()` when it succeeds. -/
theorem close_fresh {s : State} (h : s.over = false) (h' : s.localErr = none) (a : Bool)
    (c : Nat) (r : Bytes) : ∃ e, close s a c r =
      (if s.recvCount = 0 then { s with localErr := some e }.markClosed
       else { s with localErr := some e }, true) := by
  unfold close
  rw [if_neg (by unfold State.over at h; rw [h]; simp), if_neg (by rw [h']; simp)]
  exact ⟨_, rfl⟩

theorem close_spec (s : State) (a : Bool) (c : Nat) (r : Bytes) :
    close s a c r = (s, false) ∨ (s.over = false ∧ s.localErr = none ∧
      ∃ e, close s a c r = (if s.recvCount = 0 then { s with localErr := some e }.markClosed
        else { s with localErr := some e }, true)) := by
  cases h : s.over with
  | true => exact Or.inl (close_over h a c r)
  | false =>
    cases h' : s.localErr with
    | some e => exact Or.inl (close_closing (by rw [h']; rfl) a c r)
    | none => exact Or.inr ⟨rfl, rfl, close_fresh h h' a c r⟩

/-- What one received packet does. -/
theorem recvSingle_cases (s : State) (now : Nat) (p : Pkt) :
    recvSingle s now p = (s, .done) ∨
    (s.over = false ∧ s.localErr = none ∧
      ((∃ env tls cl code, p = .failed env tls cl code ∧ ∃ c, recvSingle s now p =
          ((onClose { s with env := env, localErr := orErr tls none } now cl).1, .err c)) ∨
       (∃ env tls cl, p = .accepted env tls cl ∧
         ((onClose { s with env := env, localErr := orErr tls none } now cl).2 = true ∧
           recvSingle s now p =
            ((onClose { s with env := env, localErr := orErr tls none } now cl).1.received now,
              .ok) ∨
          (onClose { s with env := env, localErr := orErr tls none } now cl).2 = false ∧
           ∃ c, recvSingle s now p =
            ((onClose { s with env := env, localErr := orErr tls none } now cl).1,
              .err c))))) := by
  cases h : s.over with
  | true => exact Or.inl (recvSingle_over h now p)
  | false =>
    cases h' : s.localErr with
    | some e => exact Or.inl (recvSingle_closing (by rw [h']; rfl) now p)
    | none =>
      have c1 : ¬((s.closed || s.drain.isSome) = true) := by
        unfold State.over at h; rw [h]; simp
      cases p with
      | dropped =>
        left; unfold recvSingle; rw [if_neg c1, if_neg (by rw [h']; simp)]
      | failed env tls cl code =>
        right
        refine ⟨rfl, rfl, Or.inl ⟨env, tls, cl, code, rfl, ?_⟩⟩
        unfold recvSingle; rw [if_neg c1, if_neg (by rw [h']; simp)]
        simp only [h']
        exact ⟨_, rfl⟩
      | accepted env tls cl =>
        right
        refine ⟨rfl, rfl, Or.inr ⟨env, tls, cl, rfl, ?_⟩⟩
        unfold recvSingle; rw [if_neg c1, if_neg (by rw [h']; simp)]
        simp only [h']
        cases hr : (onClose { s with env := env, localErr := orErr tls none } now cl).2 with
        | true => left; exact ⟨rfl, by rw [if_pos rfl]⟩
        | false => right; exact ⟨rfl, _, by rw [if_neg (by simp)]⟩

/-- What a packet of a closing connection does to the rest of the state. -/
theorem closingPacket_spec (s : State) (e : CErr) (now : Nat) (x : Slot) (ty : PktType) :
    (∃ v, (closingPacket s e now x ty).1 = { s with env := v } ∧
      ((closingPacket s e now x ty).2 = .done ∨ (closingPacket s e now x ty).2 = .panic)) ∨
    (∃ v ack n chal c el, (closingPacket s e now x ty).1 =
        State.finishSend { s with env := v, drain := drainAfter s now x c } now ty el ∧
      (closingPacket s e now x ty).2 = .sent ty (closingFrames ack n chal c e) ∧
      (c = true → ∃ left f k, x.left = some left ∧ closeFrame ty e = some f ∧
        wireLen f = some k ∧ k ≤ left) ∧ (closingFrames ack n chal c e).isEmpty = false ∧
      (n ≠ 0 ∨ chal = true → ty = .short) ∧ (ack = true → ty = .handshake ∧ e.isApp = true) ∧
      (el = (decide (0 < n) || chal || c))) := by
  unfold closingPacket
  dsimp only
  by_cases h1 : (!((s.env.ep ty).requeue x).sealKey) = true
  · rw [if_pos h1]; exact Or.inl ⟨_, rfl, Or.inl rfl⟩
  · rw [if_neg h1]
    cases hl : x.left with
    | none => exact Or.inl ⟨_, rfl, Or.inl rfl⟩
    | some left =>
      dsimp only
      generalize hack : ackSent ((s.env.ep ty).requeue x) ty e x left = ack
      generalize hroom : roomAfterAck ack x left = room
      generalize hn : responses ty x room = n
      generalize hch : challengeSent ty x (room - 9 * n) = chal
      generalize hcs : closeSent ty e x (s.env.setEp ty ((s.env.ep ty).requeue x)).nPaths
        (room - 9 * n - if chal = true then 9 else 0) = cs
      cases cs with
      | none => exact Or.inl ⟨_, rfl, Or.inr rfl⟩
      | some c =>
        dsimp only
        cases hf : (closingFrames ack n chal c e).isEmpty with
        | true => exact Or.inl ⟨_, rfl, Or.inl rfl⟩
        | false =>
          right
          refine ⟨_, ack, n, chal, c, _, rfl, rfl, ?_, hf, ?_, ?_, rfl⟩
          · intro hc
            subst hc
            unfold closeSent at hcs
            split at hcs
            · split at hcs
              · simp at hcs
              · rename_i f hx
                split at hcs
                · simp at hcs
                · rename_i k hk
                  simp only [Option.some.injEq, decide_eq_true_eq] at hcs
                  refine ⟨left, f, k, rfl, hx, hk, ?_⟩
                  have : room ≤ left := by
                    rw [← hroom]; unfold roomAfterAck; split <;> omega
                  omega
            · simp at hcs
          · intro hh
            rcases hh with hh | hh
            · unfold responses at hn
              split at hn
              · assumption
              · exact absurd hn.symm hh
            · unfold challengeSent at hch
              subst hh
              simp only [Bool.and_eq_true, beq_iff_eq] at hch
              exact hch.1.1
          · intro hh
            subst hh
            unfold ackSent at hack
            simp only [Bool.and_eq_true, beq_iff_eq] at hack
            exact hack.1.1.1.2

end Verif.Life
