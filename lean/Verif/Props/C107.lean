import Verif.Props.C100

/-! # C107 — A server does not open bidirectional streams -/

namespace Verif.Props.C107
open Verif Verif.H3 Verif.Props.C54

/-- The claim, in full (RFC 9114, section 6.1): a client that learns of a bidirectional stream
opened by the server closes the connection with H3_STREAM_CREATION_ERROR; so there are no events
for such streams. -/
def Refused : Prop := ∀ (w : W) (_ : w.Initial) (l : List Act) (spare : Nat → Nat → Nat) (rs : List Nat),
  w.c.isServer = false → ∀ id ev, id % 4 = 1 → ev ≠ .goAway → ev ≠ .priorityUpdate →
  ((w.run l).c.poll spare (rs.filter (w.run l).used)).1 ≠ .ok (id, ev)

def opened : List Act := [.opened 1, .arrive 1 [0x01, 0x03, 0x00, 0x00, 0xd1] false]

theorem accepted : ((C100.client.run opened).c.poll sp [1]).1 =
    .ok (1, .headers [([58, 109, 101, 116, 104, 111, 100], [71, 69, 84])] true) := by decide +kernel

/-- The claim is false: the client takes it for a request. -/
theorem refused_false : ¬ Refused := by
  intro h
  refine h C100.client ⟨⟨fun _ => rfl, fun _ => rfl, rfl, rfl, rfl, rfl, rfl, rfl, rfl, rfl⟩, fun _ => rfl, fun _ => rfl⟩
    opened sp [1] rfl 1 (.headers [([58, 109, 101, 116, 104, 111, 100], [71, 69, 84])] true) rfl (by simp) (by simp) ?_
  rw [show [1].filter (C100.client.run opened).used = [1] by decide +kernel]
  exact accepted

/-- What holds: what the client gets from such a stream is a message. -/
theorem message_partial {w : W} (h : w.Initial) (l : List Act) (hc : w.c.isServer = false) {id : Nat}
    (hu : (w.run l).used id = true) (hi : id % 4 = 1) :
    ∃ k tys, Used (w.run l).c id k ∧
      Says w.c.limit [] (((w.run l).c.rx id).all.take k) tys ((w.run l).log id) ∧ Message tys := by
  refine request h l hu (by omega) ?_
  unfold C.peerStream
  rw [hc, show id % 2 = 1 by omega]
  rfl

end Verif.Props.C107
