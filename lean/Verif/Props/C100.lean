import Verif.Props.C54
import Verif.H3.Unique

/-! # C100 — Responses follow the grammar of messages -/

namespace Verif.Props.C100
open Verif Verif.H3 Verif.Props.C54

/-- The claim, in full: in every execution, the frames accepted on any bidirectional stream,
also one opened by a request of this endpoint, are those of a message. -/
def Grammar : Prop := ∀ (w : W) (_ : w.Initial) (l : List Act) (id : Nat),
  (w.run l).used id = true → id % 4 < 2 →
  ∃ k tys, Used (w.run l).c id k ∧
    Says w.c.limit [] (((w.run l).c.rx id).all.take k) tys ((w.run l).log id) ∧ Message tys

/-- A client sends a request; the response begins with DATA. -/
def client : W := { c := { isServer := false } }

def bodyFirst : W := client.run [.request 0, .arrive 0 [0x00, 0x02, 0x68, 0x69] false, .poll sp [0], .body sp 0 10]

/-- The body is given to the application: no error. -/
theorem accepted : bodyFirst.log 0 = [.byte 0x68, .byte 0x69] ∧ bodyFirst.c.localErr = none := by decide +kernel

/-- The claim is false. -/
theorem grammar_false : ¬ Grammar := by
  intro h
  have hi : client.Initial :=
    ⟨⟨fun _ => rfl, fun _ => rfl, rfl, rfl, rfl, rfl, rfl, rfl, rfl, rfl⟩, fun _ => rfl, fun _ => rfl⟩
  obtain ⟨k, tys, ⟨_, h1⟩, h2, h3⟩ := h client hi _ 0
    (show bodyFirst.used 0 = true by decide +kernel) (by decide)
  have hk : k = 4 := (h1 (show (bodyFirst.c.rx 0).err = none by decide +kernel)
    (show bodyFirst.c.localErr = none by decide +kernel)).trans
    (show (bodyFirst.c.rx 0).off = 4 by decide +kernel)
  subst hk
  have hb : (bodyFirst.c.rx 0).all.take 4 = [0x00, 0x02, 0x68, 0x69] := by decide +kernel
  have h2 : Says client.c.limit [] ((bodyFirst.c.rx 0).all.take 4) tys (bodyFirst.log 0) := h2
  rw [hb] at h2
  have h4 : Says client.c.limit [] [0x00, 0x02, 0x68, 0x69] [0x00] [.byte 0x68, .byte 0x69] := by
    refine ⟨[(0x00, [0x68, 0x69])], [0x00, 0x02, 0x68, 0x69], none, [], [], rfl, ?_, .none ?_, rfl, rfl⟩
    · exact .snoc .nil ⟨[0x00], [0x02], rfl, decVarint_iff (tail := []).mp (by decide), decVarint_iff (tail := []).mp (by decide)⟩
    · intro v x y
      by_cases hx : x = []
      · right
        intro c
        have := decVarint_iff (tail := []).mpr c
        rw [hx] at this
        cases this
      · left
        intro c
        cases x with
        | nil => exact hx rfl
        | cons a x => cases c
  obtain ⟨rfl, _⟩ := h2.unique h4
  obtain ⟨a, b, c, m1, m2, _⟩ := h3
  have m1 : [0] = List.replicate a 1 ++ List.replicate b 0 ++ List.replicate c 1 := m1
  cases a with
  | zero =>
    obtain ⟨rfl, rfl⟩ := m2 rfl
    cases m1
  | succ a =>
    rw [List.replicate_succ] at m1
    cases m1

/-- What holds: on any bidirectional stream, what the application has got is the content of the
frames received, in order. Missing: the order of the frames is checked only on streams opened by
the peer (C54). -/
theorem framed_partial {w : W} (h : w.Initial) (l : List Act) {id : Nat} (hu : (w.run l).used id = true)
    (hb : id % 4 < 2) :
    ∃ k tys, Used (w.run l).c id k ∧
      Says w.c.limit [] (((w.run l).c.rx id).all.take k) tys ((w.run l).log id) := by
  obtain ⟨k, h1, h2⟩ := good h l hu
  have hb : isBidi id = true := by simp [isBidi, hb]
  unfold Good at h2
  rw [if_pos hb] at h2
  obtain ⟨tys, q1, _⟩ := h2
  exact ⟨k, tys, h1, q1⟩

end Verif.Props.C100
