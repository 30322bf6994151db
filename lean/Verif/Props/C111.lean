import Verif.Props.C54
import Verif.H3.Crit

/-! # C111 — Priorities are stored only for request streams the peer may open -/

namespace Verif.Props.C111
open Verif Verif.H3 Verif.Props.C54

/-- A request stream with one of the first `n` identifiers; RFC 9218, section 7.1: identifiers
beyond the limit are H3_ID_ERROR. -/
def Allowed (n el : Nat) : Prop := ∃ k, k < n ∧ el = 4 * k

/-- The claim, in full: in every execution of a server, each PRIORITY_UPDATE event is about an allowed
stream. Clients get none. -/
def Limited : Prop := ∀ (w : W) (_ : w.Initial) (l : List Act) (spare : Nat → Nat → Nat) (rs : List Nat) (el : Nat),
  ((w.run l).c.poll spare (rs.filter (w.run l).used)).1 = .ok (el, .priorityUpdate) →
  w.c.isServer = true ∧ Allowed w.c.maxStreamsBidi el

/-- PRIORITY_UPDATE of `u=1` for a stream with an identifier of two bytes. -/
def update (a b : UInt8) : List Act := [.opened 2,
  .arrive 2 [0x00, 0x04, 0x00, 0x80, 0x0f, 0x07, 0x00, 0x05, a, b, 0x75, 0x3d, 0x31] false]

/-- Of 100 streams the last has the identifier 396; 400 is accepted. -/
theorem beyond : ((server.run (update 0x41 0x90)).c.poll sp [2]).1 = .ok (400, .priorityUpdate) ∧
    server.c.maxStreamsBidi = 100 := by decide +kernel

/-- The claim is false. -/
theorem limited_false : ¬ Limited := by
  intro h
  obtain ⟨_, k, h1, h2⟩ := h server
    ⟨⟨fun _ => rfl, fun _ => rfl, rfl, rfl, rfl, rfl, rfl, rfl, rfl, rfl⟩, fun _ => rfl, fun _ => rfl⟩ (update 0x41 0x90) sp [2] 400
    (by rw [show [2].filter (server.run (update 0x41 0x90)).used = [2] by decide +kernel]; exact beyond.1)
  rw [beyond.2] at h1
  omega

theorem run {cf : Bool × Option Nat} {w : W} (h : w.Inv cf) (e : w.c.localErr = none → ET w.c) (l : List Act) :
    (w.run l).c.isServer = w.c.isServer ∧ (w.run l).c.maxStreamsBidi = w.c.maxStreamsBidi := by
  unfold W.run
  induction l generalizing w with
  | nil => exact ⟨rfl, rfl⟩
  | cons a l ih =>
    obtain ⟨h1, h2⟩ := ih (step_inv h a) (step_et h e a)
    have ht := step_tr h e a
    exact ⟨h1.trans ht.server, h2.trans ht.prio.2⟩

/-- What holds: one more stream than the limit is accepted, and no other. -/
theorem limited_partial {w : W} (h : w.Initial) (l : List Act) (spare : Nat → Nat → Nat) (rs : List Nat) {el : Nat}
    (he : ((w.run l).c.poll spare (rs.filter (w.run l).used)).1 = .ok (el, .priorityUpdate)) :
    w.c.isServer = true ∧ Allowed (w.c.maxStreamsBidi + 1) el := by
  have hi := run_inv (initial_inv h) l
  generalize hx : (w.run l).c.poll spare (rs.filter (w.run l).used) = x at he
  obtain ⟨res, c'⟩ := x
  have ht := (poll_et hi (fun _ hi => (List.mem_filter.mp hi).2) (run_et (initial_inv h) (fun _ => initial_et h) l) hx).1
  obtain ⟨h1, h2, h3⟩ := ht.prio.1 el (by rw [← he])
  obtain ⟨r1, r2⟩ := run (initial_inv h) (fun _ => initial_et h) l
  rw [r1] at h1
  rw [r2] at h3
  exact ⟨h1, el / 4, by omega, by omega⟩

/-! Tests: 396 is stored; 404 closes the connection with H3_ID_ERROR. -/

example : ((server.run (update 0x41 0x8c)).c.poll sp [2]).1 = .ok (396, .priorityUpdate) ∧
    ((server.run (update 0x41 0x94)).c.poll sp [2]).2.localErr = some 0x108 := by decide +kernel

end Verif.Props.C111
