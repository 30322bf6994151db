import Verif.Cong.Lemmas

/-!
Histories of calls with the windows before and after each.
-/

namespace Verif.Cong

open Verif.Rec

variable {φ : Type}

/-- A call, its outcome, and the congestion window before and after it. -/
structure Event where
  call : Call
  out : Out
  before : Nat
  after : Nat
  deriving DecidableEq, Repr

/-- The events of a history. -/
def trace (en : Env (St φ)) : Sys φ → List Call → List Event
  | _, [] => []
  | s, c :: l => ⟨c, (s.step en c).2, s.core.cc.cwnd, (s.step en c).1.core.cc.cwnd⟩ :: trace en (s.step en c).1 l

/-- The time of a call. -/
def callTime : Call → Option Nat
  | .base o => opTime o
  | _ => none

/-- Times do not go back. -/
def Ordered : Nat → List Call → Prop
  | _, [] => True
  | t, c :: l => t ≤ (callTime c).getD t ∧ Ordered ((callTime c).getD t) l

instance : (t : Nat) → (l : List Call) → Decidable (Ordered t l)
  | _, [] => .isTrue trivial
  | t, c :: l =>
    have := instDecidableOrdered ((callTime c).getD t) l
    inferInstanceAs (Decidable (_ ∧ _))

/-- Whether a call sets the datagram size. -/
def resizes : Call → Bool
  | .pmtu _ => true
  | .peerMax _ => true
  | _ => false

/-- Whether a packet, the newest of those declared lost, was sent after the given time. -/
def newer (since : Option Nat) (out : Out) : Bool :=
  match newest out.lost, since with
  | none, _ => false
  | some _, none => true
  | some p, some t => decide (t < p.timeSent)

theorem ordered_time {t : Nat} {c : Call} {l : List Call} (h : Ordered t (c :: l)) : ∀ now, callTime c = some now → t ≤ now := by
  intro now hn
  have := h.1
  rw [hn] at this
  exact this

end Verif.Cong
