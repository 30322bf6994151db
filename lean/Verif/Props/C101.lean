import Verif.Props.C100

/-! # C101 — What an application gets from a stream depends only on the bytes of the stream -/

namespace Verif.Props.C101
open Verif Verif.H3 Verif.Props.C54

/-- In two executions, however the bytes of a stream arrive, whatever else happens, and however
`poll` and `recv_body` are called: if the same bytes were read from the stream, the application
has got the same. -/
theorem determined {w w' : W} (h : w.Initial) (h' : w'.Initial) (hlim : w.c.limit = w'.c.limit)
    (l l' : List Act) {id : Nat} (hb : id % 4 < 2)
    (hu : (w.run l).used id = true) (hu' : (w'.run l').used id = true)
    (he : ((w.run l).c.rx id).err = none ∧ (w.run l).c.localErr = none)
    (he' : ((w'.run l').c.rx id).err = none ∧ (w'.run l').c.localErr = none)
    (hr : ((w.run l).c.rx id).all.take ((w.run l).c.rx id).off =
      ((w'.run l').c.rx id).all.take ((w'.run l').c.rx id).off) :
    (w.run l).log id = (w'.run l').log id := by
  obtain ⟨k, tys, ⟨_, k1⟩, k2⟩ := C100.framed_partial h l hu hb
  obtain ⟨k', tys', ⟨_, k1'⟩, k2'⟩ := C100.framed_partial h' l' hu' hb
  rw [k1 he.1 he.2, hr] at k2
  rw [k1' he'.1 he'.2, ← hlim] at k2'
  exact (k2.unique k2').2

/-- When `poll` says that a stream is finished, the peer has finished it, and if it was not reset,
the application has got the content of all of it. -/
theorem finished {w : W} (h : w.Initial) (l : List Act) {spare : Nat → Nat → Nat} {rs : List Nat} {id : Nat} {c : C}
    (hp : (w.run l).c.poll spare (rs.filter (w.run l).used) = (.ok (id, .finished), c)) :
    (c.rx id).fin = true ∧ (id % 4 < 2 → (c.rx id).err = none →
      ∃ tys, Says w.c.limit [] (c.rx id).all tys ((w.run l).log id)) := by
  have hi := run_inv (initial_inv h) l
  have hok := poll_inv hi (fun i hi => (List.mem_filter.mp hi).2) hp
  obtain ⟨hu, hc⟩ := hok.fin id rfl
  refine ⟨finished_fin hc.wf hc.fin, fun hb he => ?_⟩
  obtain ⟨k, _, k2, k3⟩ := hc.hist
  have hb : isBidi id = true := by simp [isBidi, hb]
  unfold Good at k2
  rw [if_pos hb, k3 he, List.take_length] at k2
  obtain ⟨tys, q, _⟩ := k2
  have hcf := hok.inv.conf
  simp only [Prod.mk.injEq] at hcf
  have : c.limit = w.c.limit := by unfold C.limit; rw [hcf.2]
  rw [this] at q
  exact ⟨tys, q⟩

/-- When `poll` says that a stream was reset, the peer has reset it with that code. -/
theorem reset {w : W} (h : w.Initial) (l : List Act) {spare : Nat → Nat → Nat} {rs : List Nat} {id x : Nat} {c : C}
    (hp : (w.run l).c.poll spare (rs.filter (w.run l).used) = (.ok (id, .reset x), c)) :
    (c.rx id).err = some x := by
  have hi := run_inv (initial_inv h) l
  exact ((poll_inv hi (fun i hi => (List.mem_filter.mp hi).2) hp).reset id x rfl).2

/-! Tests: the message of C54 at once, and read with one call. -/

def atOnce : W := server.run [.opened 0, .arrive 0 message true, .poll sp [0], .poll sp [0], .body sp 0 100, .poll sp [0]]

example : atOnce.log 0 = pieces.log 0 ∧ atOnce.log 0 = [got, .byte 0x68, .byte 0x69, got] := by decide +kernel

example : (atOnce.c.poll sp []).1 = .ok (0, .finished) := by decide +kernel

end Verif.Props.C101
