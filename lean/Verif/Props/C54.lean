import Verif.H3.Exec

/-! # C54 — HTTP/3 streams opened by the peer follow the grammar of their kind -/

namespace Verif.Props.C54
open Verif Verif.H3

/-- The first `k` bytes of the stream have been used. If the stream was not reset and the
connection was not closed because of an error, these are all bytes that were read from it. -/
def Used (c : C) (id k : Nat) : Prop :=
  k ≤ (c.rx id).all.length ∧ ((c.rx id).err = none → c.localErr = none → k = (c.rx id).off)

theorem conf {w : W} (h : w.Initial) (l : List Act) :
    (w.run l).c.limit = w.c.limit ∧ ∀ id, (w.run l).c.peerStream id = w.c.peerStream id := by
  have hi := (run_inv (initial_inv h) l).conf
  simp only [Prod.mk.injEq] at hi
  unfold C.limit C.peerStream
  rw [hi.1, hi.2]
  exact ⟨rfl, fun _ => rfl⟩

theorem good {w : W} (h : w.Initial) (l : List Act) {id : Nat} (hu : (w.run l).used id = true) :
    ∃ k, Used (w.run l).c id k ∧
      Good w.c.limit id (w.c.peerStream id) (((w.run l).c.rx id).all.take k) ((w.run l).log id) := by
  have hi := run_inv (initial_inv h) l
  rw [← (conf h l).1, ← (conf h l).2]
  rcases hi.used hu with o | o | o
  · obtain ⟨k, k1, k2, k3⟩ := o.hist
    exact ⟨k, ⟨k1, fun e _ => k3 e⟩, k2.good⟩
  · obtain ⟨k, k1, k2, k3⟩ := o.hist
    exact ⟨k, ⟨k1, fun e _ => (k3 e).trans (finished_off o.wf o.fin).symm⟩, k2⟩
  · obtain ⟨k, k1, k2⟩ := o.hist
    refine ⟨k, ⟨k1, fun _ e => ?_⟩, k2⟩
    have := o.lerr
    rw [e] at this; cases this

/-- In every execution, the frames accepted on a bidirectional stream opened by the peer are those
of a message, and the application has got the content of exactly these frames. -/
theorem request {w : W} (h : w.Initial) (l : List Act) {id : Nat} (hu : (w.run l).used id = true)
    (hb : id % 4 < 2) (hp : w.c.peerStream id = true) :
    ∃ k tys, Used (w.run l).c id k ∧
      Says w.c.limit [] (((w.run l).c.rx id).all.take k) tys ((w.run l).log id) ∧ Message tys := by
  obtain ⟨k, h1, h2⟩ := good h l hu
  have hb : isBidi id = true := by simp [isBidi, hb]
  unfold Good at h2
  rw [if_pos hb] at h2
  obtain ⟨tys, q1, q2⟩ := h2
  exact ⟨k, tys, h1, q1, q2 hp⟩

/-- In every execution, the frames accepted on a unidirectional stream of the type of control
streams (0x00) are those of a control stream. -/
theorem control {w : W} (h : w.Initial) (l : List Act) {id : Nat} (hu : (w.run l).used id = true)
    (hb : ¬ id % 4 < 2) :
    ∃ k, Used (w.run l).c id k ∧ ∀ hdr y, ((w.run l).c.rx id).all.take k = hdr ++ y → IsVarint 0x00 hdr →
      ∃ tys, Says w.c.limit hdr (((w.run l).c.rx id).all.take k) tys [] ∧ Control tys := by
  obtain ⟨k, h1, h2⟩ := good h l hu
  have hb : isBidi id = false := by simp [isBidi]; omega
  unfold Good at h2
  rw [if_neg (by rw [hb]; decide)] at h2
  exact ⟨k, h1, h2.2⟩

/-! Tests: a request that is read in pieces; a body that comes before the headers; SETTINGS twice. -/

def sp : Nat → Nat → Nat := fun a _ => a
def server : W := { c := { isServer := true } }

example : server.Initial := ⟨⟨fun _ => rfl, fun _ => rfl, rfl, rfl, rfl, rfl, rfl, rfl, rfl, rfl⟩, fun _ => rfl, fun _ => rfl⟩

/-- HEADERS with `:method: GET`, an unknown frame, DATA with "hi", HEADERS with `:method: GET`. -/
def message : Bytes :=
  [0x01, 0x03, 0x00, 0x00, 0xd1, 0x21, 0x01, 0xff, 0x00, 0x02, 0x68, 0x69, 0x01, 0x03, 0x00, 0x00, 0xd1]

def got : Out := .headers [([58, 109, 101, 116, 104, 111, 100], [71, 69, 84])]

def pieces : W := server.run [.opened 0, .arrive 0 (message.take 4) false, .poll sp [0],
  .arrive 0 ((message.drop 4).take 5) false, .poll sp [0], .poll sp [0], .arrive 0 (message.drop 9) true,
  .poll sp [0], .body sp 0 1, .poll sp [0], .body sp 0 10, .poll sp [0]]

example : pieces.used 0 = true ∧ pieces.c.localErr = none ∧ (pieces.c.rx 0).off = 17 ∧
    pieces.log 0 = [got, .byte 0x68, .byte 0x69, got] := by decide +kernel

/-- DATA first. -/
def early : W := server.run [.opened 0, .arrive 0 [0x00, 0x02, 0x68, 0x69] true, .poll sp [0]]

example : early.c.localErr = some 0x105 ∧ early.log 0 = [] := by decide +kernel

/-- The control stream, with SETTINGS twice. -/
def twice : W := server.run [.opened 2, .arrive 2 [0x00, 0x04, 0x00, 0x04, 0x00] false, .poll sp [2]]

example : twice.c.localErr = some 0x105 := by decide +kernel

end Verif.Props.C54
