import Verif.Props.C101

/-! # C102 — A stream that ends within a frame is an error -/

namespace Verif.Props.C102
open Verif Verif.H3 Verif.Props.C54

/-- The claim, in full (RFC 9114, section 7.1): a stream that is reported finished, and was not
reset, consists of whole frames. -/
def Whole : Prop := ∀ (w : W) (_ : w.Initial) (l : List Act) (spare : Nat → Nat → Nat) (rs : List Nat) (id : Nat) (c : C),
  (w.run l).c.poll spare (rs.filter (w.run l).used) = (.ok (id, .finished), c) → id % 4 < 2 →
  (c.rx id).err = none → ∃ fs, Frames fs (c.rx id).all

/-- HEADERS, and one of the five bytes of a DATA frame. -/
def cut : Bytes := [0x01, 0x03, 0x00, 0x00, 0xd1, 0x00, 0x05, 0x68]

def reads : List Act := [.opened 0, .arrive 0 cut true, .poll sp [0], .poll sp [0], .body sp 0 100]

theorem reported : ((server.run reads).c.poll sp ([].filter (server.run reads).used)).1 = .ok (0, .finished) ∧
    (server.run reads).log 0 = [got, .byte 0x68] := by decide +kernel

/-- The claim is false. -/
theorem whole_false : ¬ Whole := by
  intro h
  have hi : server.Initial :=
    ⟨⟨fun _ => rfl, fun _ => rfl, rfl, rfl, rfl, rfl, rfl, rfl, rfl, rfl⟩, fun _ => rfl, fun _ => rfl⟩
  obtain ⟨fs, hf⟩ := h server hi reads sp [] 0
    ((server.run reads).c.poll sp ([].filter (server.run reads).used)).2 (Prod.ext reported.1 rfl) (by decide) (by decide +kernel)
  have hb : (((server.run reads).c.poll sp ([].filter (server.run reads).used)).2.rx 0).all = cut := by decide +kernel
  rw [hb] at hf
  have hn : Begun none [] [] := .none fun v x y => by
    by_cases hx : x = []
    · right
      intro c
      have := decVarint_iff (tail := []).mpr c
      rw [hx] at this
      cases this
    · left
      intro c
      cases x with
      | nil => exact hx rfl
      | cons a x => cases c
  have v : ∀ n b, decVarint (b ++ []) = .ok (n, b.length) → IsVarint n b := fun n b h => decVarint_iff.mp h
  have h1 : Frames [(0x01, [0x00, 0x00, 0xd1])] [0x01, 0x03, 0x00, 0x00, 0xd1] :=
    .snoc .nil ⟨[0x01], [0x03], rfl, v _ _ (by decide), v _ _ (by decide)⟩
  have h2 : Begun (some 0x00) [0x68] ([0x00] ++ [0x05] ++ [0x68]) :=
    .payload (n := 5) (v _ _ (by decide)) (v _ _ (by decide)) (by decide)
  obtain ⟨_, h3, _⟩ := frames_unique hf h1 hn h2 (by rw [List.append_nil]; rfl)
  cases h3

/-- What holds: the content of the whole frames was given, of an incomplete DATA frame what there
is, and of any other incomplete frame nothing. -/
theorem content_partial {w : W} (h : w.Initial) (l : List Act) {spare : Nat → Nat → Nat} {rs : List Nat} {id : Nat} {c : C}
    (hp : (w.run l).c.poll spare (rs.filter (w.run l).used) = (.ok (id, .finished), c)) (hb : id % 4 < 2)
    (he : (c.rx id).err = none) :
    ∃ fs body ty p rest, (c.rx id).all = body ++ rest ∧ Frames fs body ∧ Begun ty p rest ∧
      (w.run l).log id = framesOut w.c.limit fs ++ (if ty = some 0x00 then p.map .byte else []) := by
  obtain ⟨tys, fs, body, ty, p, rest, h1, h2, h3, _, h5⟩ := (C101.finished h l hp).2 hb he
  exact ⟨fs, body, ty, p, rest, h1, h2, h3, h5⟩

end Verif.Props.C102
