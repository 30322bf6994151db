import Verif.Props.C54
import Verif.H3.Once

/-! # C108 — Streams that are over are forgotten -/

namespace Verif.Props.C108
open Verif Verif.H3 Verif.Props.C54

/-- The application has been told everything of the stream, and has no more to send on it. -/
structure Done (w : W) (id : Nat) : Prop where
  used : w.used id = true
  fin : (w.c.rx id).finished = true
  read : (w.c.rx id).readable = false
  sent : (∃ s, w.c.streams id = some s ∧ s.localFinished = true) ∨ id % 4 ≥ 2
  told : id ∉ w.c.finished

/-- The claim, in full: in every execution in which the connection is not closed, nothing is
kept of such streams once `poll` has said that there is nothing to do, but for the critical ones. -/
def Forgotten : Prop := ∀ (w : W) (_ : w.Initial) (l : List Act) (id : Nat), let w' := w.run l
  w'.c.localErr = none → Done w' id → (w'.c.poll sp []).1 = .error .done →
  id ∉ [w'.c.peerControl, w'.c.peerEnc, w'.c.peerDec].filterMap (fun x => x) → w'.c.streams id = none

/-- A unidirectional stream of unknown type that ends after its type was read. -/
def leak : List Act := [.opened 2, .arrive 2 [0x21] false, .poll sp [2], .arrive 2 [] true, .poll sp []]

theorem leak_kept : (server.run leak).c.localErr = none ∧ ((server.run leak).c.streams 2).isSome = true ∧
    (server.run leak).used 2 = true ∧ ((server.run leak).c.rx 2).finished = true ∧
    ((server.run leak).c.rx 2).readable = false ∧ (server.run leak).c.finished = [] ∧
    ((server.run leak).c.poll sp []).1 = .error .done ∧
    [(server.run leak).c.peerControl, (server.run leak).c.peerEnc, (server.run leak).c.peerDec].filterMap (fun x => x) = [] := by
  decide +kernel

/-- The claim is false. -/
theorem forgotten_false : ¬ Forgotten := by
  intro h
  obtain ⟨h1, h2, h3, h4, h5, h6, h7, h8⟩ := leak_kept
  have := h server ⟨⟨fun _ => rfl, fun _ => rfl, rfl, rfl, rfl, rfl, rfl, rfl, rfl, rfl⟩, fun _ => rfl, fun _ => rfl⟩ leak 2
    h1 ⟨h3, h4, h5, .inr (by decide), by rw [h6]; simp⟩ h7 (by rw [h8]; simp)
  rw [this] at h2
  cases h2

theorem run {cf : Bool × Option Nat} {l : List Act} : ∀ {w : W}, w.Inv cf → (w.c.localErr = none → ET w.c) → (w.c.localErr = none → Kept w.c) →
    (w.run l).c.localErr = none → Kept (w.run l).c := by
  unfold W.run
  induction l with
  | nil => intro w _ _ hk; exact hk
  | cons a l ih =>
    intro w h e hk
    exact ih (step_inv h a) (step_et h e a) (fun hn => step_kept h ((step_tr h e a).lerr_none hn) (hk ((step_tr h e a).lerr_none hn)) a)

/-- What holds: in every execution in which the connection is not closed, if the application has
finished its half of a stream, and has been told that the peer's half is finished, then nothing is
kept of the stream. -/
theorem forgotten_partial {w : W} (h : w.Initial) (l : List Act) (hn : (w.run l).c.localErr = none) {id : Nat} {s : Strm}
    (hs : (w.run l).c.streams id = some s) (hf : s.state = .finished) (hl : s.localFinished = true) :
    id ∈ (w.run l).c.finished := by
  refine run (initial_inv h) (fun _ => initial_et h) (fun _ j ho => ?_) hn id ?_ ?_
  · unfold C.over at ho
    rw [h.1.1 j] at ho
    cases ho
  · rw [over_some hs, hf]; rfl
  · rw [lf_some hs]; exact hl

/-! Test: a request is answered, and forgotten with the event. -/

def hd : Bytes := [0x01, 0x03, 0x00, 0x00, 0xd1]

example : ((server.run [.opened 0, .arrive 0 hd true, .poll sp [0], .finishLocal 0]).c.streams 0).isNone = true ∧
    ((server.run [.opened 0, .arrive 0 hd false, .poll sp [0], .finishLocal 0, .arrive 0 [] true]).c.streams 0).isSome = true ∧
    ((server.run [.opened 0, .arrive 0 hd false, .poll sp [0], .finishLocal 0, .arrive 0 [] true, .poll sp [0]]).c.streams 0).isNone = true := by
  decide +kernel

end Verif.Props.C108
