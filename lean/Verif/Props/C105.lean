import Verif.Props.C54
import Verif.H3.Once

/-! # C105 — The application is told once that a stream has ended -/

namespace Verif.Props.C105
open Verif Verif.H3 Verif.Props.C54

/-- The events that tell of the end of the stream `j`. -/
def terminal (j : Nat) : Res → Bool
  | .ok (i, .finished) => i == j
  | .ok (i, .reset _) => i == j
  | _ => false

def finished (j : Nat) : Res → Bool
  | .ok (i, .finished) => i == j
  | _ => false

/-- The claim, in full: in every execution, the end of each stream is told at most once, as
Finished or as Reset. -/
def Once : Prop := ∀ (w : W) (_ : w.Initial) (l : List Act) (j : Nat), (w.polls l).countP (terminal j) ≤ 1

/-- HEADERS with `:method: GET`. -/
def hd : Bytes := [0x01, 0x03, 0x00, 0x00, 0xd1]

/-- After Reset, `recv_body` makes the stream end again. -/
def afterReset : List Act := [.opened 0, .arrive 0 hd false, .poll sp [0], .reset 0 7, .poll sp [0], .body sp 0 10, .poll sp []]

theorem reset_finished : (server.polls afterReset).drop 1 = [.ok (0, .reset 7), .ok (0, .finished)] := by decide +kernel

/-- The application has sent its part already when the stream ends inside a body: Data, Finished,
and Finished again. -/
def twice : List Act := [.opened 0, .arrive 0 (hd ++ [0x00, 0x05, 1, 2]) false, .poll sp [0], .poll sp [0],
  .body sp 0 10, .finishLocal 0, .arrive 0 [] true, .poll sp [0], .poll sp [0], .poll sp [0]]

theorem finished_twice : (server.polls twice).drop 2 = [.ok (0, .data), .ok (0, .finished), .ok (0, .finished)] := by decide +kernel

theorem initial : server.Initial :=
  ⟨⟨fun _ => rfl, fun _ => rfl, rfl, rfl, rfl, rfl, rfl, rfl, rfl, rfl⟩, fun _ => rfl, fun _ => rfl⟩

/-- The claim is false. -/
theorem once_false : ¬ Once := fun h =>
  absurd (h server initial afterReset 0) (by decide +kernel)

/-- It is false of Finished alone. -/
theorem finished_false : ¬ ∀ (w : W) (_ : w.Initial) (l : List Act) (j : Nat), (w.polls l).countP (finished j) ≤ 1 :=
  fun h => absurd (h server initial twice 0) (by decide +kernel)

theorem polls_cons {w : W} {a : Act} {l : List Act} (j : Nat) :
    (w.polls (a :: l)).countP (finished j) = ends j (w.res a) + ((w.step a).polls l).countP (finished j) := by
  cases a with
  | poll spare rs =>
    show (List.countP _ (_ :: _)) = ends j (some _) + _
    generalize (w.c.poll spare (rs.filter w.used)).1 = r
    rw [List.countP_cons, Nat.add_comm]
    congr 1
    unfold ends
    cases r with
    | error e => rw [if_neg (by exact Bool.noConfusion), if_neg (by simp)]
    | ok x =>
      obtain ⟨i, ev⟩ := x
      cases ev <;> simp [finished]
  | body spare id n =>
    have : ends j (w.res (.body spare id n)) = 0 := by
      simp only [W.res]
      split
      · exact ends_not res_body
      · exact ends_not none_ends
    rw [this, Nat.zero_add]; rfl
  | _ => show _ = ends j none + _; rw [ends_not none_ends, Nat.zero_add]; rfl

theorem run {cf : Bool × Option Nat} {j : Nat} : ∀ {l : List Act} {w : W}, w.Inv cf → Act.finishLocal j ∉ l → w.c.lf j = false →
    (w.polls l).countP (finished j) + (w.c.over j).toNat ≤ w.c.finished.count j + 1 := by
  intro l
  induction l with
  | nil =>
    intro w _ _ _
    show 0 + _ ≤ _
    cases w.c.over j <;> simp
  | cons a l ih =>
    intro w h hl hf
    have hr := step_r h (a := a) (j := j) (fun e => hl (by rw [e]; simp))
    have h1 := ih (step_inv h a) (fun e => hl (List.mem_cons_of_mem _ e)) (hr.lf hf)
    have h2 := hr.count hf
    rw [polls_cons]
    omega

/-- What holds: if the application does not finish its half of the stream, Finished is told at most
once. -/
theorem finished_partial {w : W} (h : w.Initial) (l : List Act) {j : Nat} (hl : Act.finishLocal j ∉ l) :
    (w.polls l).countP (finished j) ≤ 1 := by
  have h0 : w.c.streams j = none := h.1.1 j
  have h1 := run (initial_inv h) hl (by unfold C.lf; rw [h0])
  have h2 : w.c.finished = [] := h.1.2.2.2.2.2.1
  rw [h2] at h1
  simpa using Nat.le_trans (Nat.le_add_right _ _) h1

/-! Test: a message with its end is told as Headers, Data, Headers, Finished. -/

example : (server.polls [.opened 0, .arrive 0 message true, .poll sp [0], .poll sp [0], .body sp 0 10,
    .poll sp [0], .poll sp [0], .poll sp [0]]).countP (finished 0) = 1 := by decide +kernel

end Verif.Props.C105
