import Verif.Props.C100
import Verif.Props.C112
import Verif.H3.Crit

/-! # C110 — The connection is closed with the code of the error that is returned -/

namespace Verif.Props.C110
open Verif Verif.H3 Verif.Props.C54

/-- The codes of RFC 9114, section 8.1, and RFC 9204, section 6. A payload that does not have the
fields of its frame is H3_FRAME_ERROR (RFC 9114, section 7.1). The others are not errors of the
connection. -/
def rfc : Err → Option Nat
  | .internalError => some 0x102
  | .streamCreationError => some 0x103
  | .closedCriticalStream => some 0x104
  | .frameUnexpected => some 0x105
  | .frameError | .bufferTooShort => some 0x106
  | .excessiveLoad => some 0x107
  | .idError => some 0x108
  | .settingsError => some 0x109
  | .missingSettings => some 0x10a
  | .qpackDecompressionFailed => some 0x200
  | .done | .transport | .streamReset _ | .streamBlocked | .panic => none

/-- The code that belongs to a result. -/
def code {α : Type} : Except Err α → Option Nat
  | .ok _ => none
  | .error e => rfc e

/-- The claim, in full: in every execution, a call of `poll` or `recv_body` closes the connection
if and only if it returns an error of the connection, and with the code of this error. -/
def Coded : Prop := ∀ (w : W) (_ : w.Initial) (l : List Act), (w.run l).c.localErr = none →
  (∀ (spare : Nat → Nat → Nat) (rs : List Nat), ((w.run l).c.poll spare (rs.filter (w.run l).used)).2.localErr =
    code ((w.run l).c.poll spare (rs.filter (w.run l).used)).1) ∧
  ∀ spare id n, (w.run l).used id = true →
    ((w.run l).c.recvBody spare id n).2.localErr = code ((w.run l).c.recvBody spare id n).1.1

/-- GOAWAY with the identifier of a stream that is not a request: the client returns `IdError` and
closes with H3_FRAME_UNEXPECTED. -/
def goaway : List Act := [.opened 3, .arrive 3 [0x00, 0x04, 0x00, 0x07, 0x01, 0x01] false]

theorem goaway_code : ((C100.client.run goaway).c.poll sp [3]).1 = .error .idError ∧
    ((C100.client.run goaway).c.poll sp [3]).2.localErr = some 0x105 := by decide +kernel

/-- CANCEL_PUSH with half an integer: the code is none of HTTP/3. -/
def half : List Act := [.opened 2, .arrive 2 [0x00, 0x04, 0x00, 0x03, 0x01, 0x40] false]

theorem half_code : ((server.run half).c.poll sp [2]).1 = .error .bufferTooShort ∧
    ((server.run half).c.poll sp [2]).2.localErr = some 0x999 := by decide +kernel

/-- The claim is false. -/
theorem coded_false : ¬ Coded := by
  intro h
  have hi : C100.client.Initial :=
    ⟨⟨fun _ => rfl, fun _ => rfl, rfl, rfl, rfl, rfl, rfl, rfl, rfl, rfl⟩, fun _ => rfl, fun _ => rfl⟩
  have := (h C100.client hi goaway (by decide +kernel)).1 sp [3]
  rw [show [3].filter (C100.client.run goaway).used = [3] by decide +kernel, goaway_code.1, goaway_code.2] at this
  cases this

theorem key {c c' : C} {res : Res} (h : Tr c (some res) c') (hn : c.localErr = none)
    (h1 : res ≠ .error .panic) (h2 : res ≠ .error .bufferTooShort) (h3 : c.isServer = true ∨ res ≠ .error .idError) :
    c'.localErr = code res := by
  have hc := h.code hn
  unfold Code at hc
  cases res with
  | ok x => exact hc
  | error e =>
    dsimp only at hc
    rcases hc with rfl | ⟨a, b⟩ | ⟨a, b⟩ | ⟨a, rfl, b⟩
    · exact absurd rfl h1
    · rw [b]; cases e <;> first | rfl | cases a
    · rw [b]
      cases e <;> first | rfl | exact absurd rfl h2 | cases a
    · rcases h3 with h3 | h3
      · rw [h3] at a; cases a
      · exact absurd rfl h3

theorem server_run {cf : Bool × Option Nat} {w : W} (h : w.Inv cf) (e : w.c.localErr = none → ET w.c) (l : List Act) :
    (w.run l).c.isServer = w.c.isServer := by
  unfold W.run
  induction l generalizing w with
  | nil => rfl
  | cons a l ih => exact (ih (step_inv h a) (step_et h e a)).trans (step_tr h e a).server

/-- It holds of `poll` but for these two: a client that returns `IdError`, and `BufferTooShort`. -/
theorem poll_partial {w : W} (h : w.Initial) (l : List Act) (hn : (w.run l).c.localErr = none)
    (spare : Nat → Nat → Nat) (rs : List Nat) :
    let res := (w.run l).c.poll spare (rs.filter (w.run l).used)
    res.1 ≠ .error .bufferTooShort → (w.c.isServer = true ∨ res.1 ≠ .error .idError) → res.2.localErr = code res.1 := by
  intro res h2 h3
  have hi := run_inv (initial_inv h) l
  refine key (poll_et hi (fun _ hi => (List.mem_filter.mp hi).2) (run_et (initial_inv h) (fun _ => initial_et h) l) rfl).1
    hn (C112.poll h l spare rs) h2 (h3.imp (fun h3 => ?_) id)
  rw [server_run (initial_inv h) (fun _ => initial_et h)]; exact h3

/-- And of `recv_body`. -/
theorem body_partial {w : W} (h : w.Initial) (l : List Act) (hn : (w.run l).c.localErr = none)
    (spare : Nat → Nat → Nat) {id : Nat} (n : Nat) (hu : (w.run l).used id = true) :
    let res := (w.run l).c.recvBody spare id n
    res.1.1 ≠ .error .bufferTooShort → (w.c.isServer = true ∨ res.1.1 ≠ .error .idError) →
    res.2.localErr = code res.1.1 := by
  intro res h2 h3
  have hi := run_inv (initial_inv h) l
  have hc : ∀ x : Except Err Nat, code (bodyRes id x) = code x := by intro x; cases x <;> rfl
  have hb : ∀ {x : Except Err Nat} {e}, x ≠ .error e → bodyRes id x ≠ .error e := by
    intro x e hx hc; cases x with
    | ok _ => cases hc
    | error e' => cases hc; exact hx rfl
  rw [← hc]
  refine key (recvBody_et hu hi (run_et (initial_inv h) (fun _ => initial_et h) l) rfl).1 hn (hb (C112.body h l spare n hu).1)
    (hb h2) (h3.imp (fun h3 => ?_) hb)
  rw [server_run (initial_inv h) (fun _ => initial_et h)]; exact h3

/-! Test: a second SETTINGS frame. -/

example : ((server.run [.opened 2, .arrive 2 [0x00, 0x04, 0x00, 0x04, 0x00] false]).c.poll sp [2]).1 =
    .error .frameUnexpected ∧
    ((server.run [.opened 2, .arrive 2 [0x00, 0x04, 0x00, 0x04, 0x00] false]).c.poll sp [2]).2.localErr = some 0x105 := by
  decide +kernel

end Verif.Props.C110
