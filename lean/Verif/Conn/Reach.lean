import Verif.Conn.Safe

/-! What holds after any history of a new connection. -/

namespace Verif.Conn
open Verif Verif.Stream

namespace Conn
variable {c : Conn} {h : Hist} {gone : List Nat}

theorem run_append (c : Conn) (a b : List Op) :
    c.run (a ++ b) = (((c.run a).1.run b).1, (c.run a).2 ++ ((c.run a).1.run b).2) := by
  induction a generalizing c with
  | nil => rfl
  | cons op a ih => simp only [List.cons_append, run, ih]

theorem _root_.Verif.Conn.Hist.of_append (h : Hist) (a b : List (Op × Ev)) : h.of (a ++ b) = (h.of a).of b := by
  simp [Hist.of, List.foldl_append]

/-- The invariant holds unless there was a panic. -/
theorem run_reach (hI : Inv c h gone) {ops : List Op} (hok : ∀ op ∈ ops, op.Ok) :
    Inv (c.run ops).1 (h.of (c.run ops).2) gone ∨ (c.run ops).1.crashed = true := by
  induction ops generalizing c h with
  | nil => exact .inl hI
  | cons op ops ih =>
    rcases step_safe hI (hok op List.mem_cons_self) with ⟨-, -, hI1⟩ | ⟨-, hcr, -⟩
    · exact ih hI1 (fun o ho => hok o (List.mem_cons_of_mem _ ho))
    · right
      show ((c.step op).1.run ops).1.crashed = true
      rw [(run_crashed hcr ops).1]; exact hcr

/-- The books are always those of some state satisfying the invariant. -/
theorem run_books (hI : Inv c h gone) {ops : List Op} (hok : ∀ op ∈ ops, op.Ok) :
    ∃ c', Inv c' (h.of (c.run ops).2) gone := by
  rcases run_inv ops hI hok with h1 | ⟨pre, op, post, c1, -, -, h1, -, -, h2⟩
  · exact ⟨_, h1⟩
  · rw [h2]; exact ⟨c1, h1⟩

theorem _root_.Verif.Conn.Hist.step_const (h : Hist) (op : Op) (ev : Ev) :
    (h.step op ev).unit = h.unit ∧ (h.step op ev).first = h.first := by
  unfold Hist.step; split <;> exact ⟨rfl, rfl⟩

theorem _root_.Verif.Conn.Hist.of_const (h : Hist) (es : List (Op × Ev)) :
    (h.of es).unit = h.unit ∧ (h.of es).first = h.first := by
  induction es generalizing h with
  | nil => exact ⟨rfl, rfl⟩
  | cons e t ih =>
    have := ih (h.step e.1 e.2)
    have h2 := h.step_const e.1 e.2
    exact ⟨this.1.trans h2.1, this.2.trans h2.2⟩

/-- What an observer of a new connection has booked after a history. -/
def books (g : Config) (ops : List Op) : Hist := (Hist.init g).of ((start g).run ops).2

/-- The state of a new connection after a history. -/
def after (g : Config) (ops : List Op) : Conn := ((start g).run ops).1

theorem after_append (g : Config) (a b : List Op) : after g (a ++ b) = ((after g a).run b).1 := by
  simp only [after, run_append]

theorem books_append (g : Config) (a b : List Op) : books g (a ++ b) = (books g a).of ((after g a).run b).2 := by
  simp only [books, after, run_append, Hist.of_append]

theorem after_inv (g : Config) (hd : 0 < g.factorDen) {ops : List Op} (hok : ∀ op ∈ ops, op.Ok) :
    Inv (after g ops) (books g ops) [] ∨ (after g ops).crashed = true := run_reach (Inv.start g hd) hok

theorem books_inv (g : Config) (hd : 0 < g.factorDen) {ops : List Op} (hok : ∀ op ∈ ops, op.Ok) :
    ∃ c, Inv c (books g ops) [] := run_books (Inv.start g hd) hok

end Conn
end Verif.Conn
