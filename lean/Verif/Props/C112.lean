import Verif.Props.C54

/-! # C112 — Receiving HTTP/3 always comes to an end and never panics -/

namespace Verif.Props.C112
open Verif Verif.H3 Verif.Props.C54

/-- In every execution, `poll` comes to an end and does not panic. (Running out of the bound on
iterations is a panic of the model.) -/
theorem poll {w : W} (h : w.Initial) (l : List Act) (spare : Nat → Nat → Nat) (rs : List Nat) :
    ((w.run l).c.poll spare (rs.filter (w.run l).used)).1 ≠ .error .panic :=
  (poll_inv (run_inv (initial_inv h) l) (fun _ hi => (List.mem_filter.mp hi).2) rfl).panic

/-- In every execution, `recv_body` comes to an end and does not panic; it writes no more than
there is room for, and the number it returns is that of the bytes written. -/
theorem body {w : W} (h : w.Initial) (l : List Act) (spare : Nat → Nat → Nat) {id : Nat} (n : Nat)
    (hu : (w.run l).used id = true) :
    ((w.run l).c.recvBody spare id n).1.1 ≠ .error .panic ∧ ((w.run l).c.recvBody spare id n).1.2.length ≤ n ∧
    ∀ m, ((w.run l).c.recvBody spare id n).1.1 = .ok m → m = ((w.run l).c.recvBody spare id n).1.2.length := by
  generalize hx : (w.run l).c.recvBody spare id n = x
  have hok := recvBody_ok hu (run_inv (initial_inv h) l) hx
  obtain ⟨bs, b1, b2, _⟩ := hok.more
  rw [List.nil_append] at b1
  exact ⟨hok.panic, by rw [b1]; exact b2, hok.count⟩

/-! Test: a read of two bytes with room for ten. -/

example : ((server.run [.opened 0, .arrive 0 message true, .poll sp [0], .poll sp [0]]).c.recvBody sp 0 10).1 =
    (.ok 2, [0x68, 0x69]) := by decide +kernel

end Verif.Props.C112
