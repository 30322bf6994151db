import Verif.Conn.Queued

/-! # C61 — stream data that may be sent is sent -/

namespace Verif.C61
open Verif Verif.Stream Verif.Conn Verif.Conn.Conn

theorem queued (g : Config) (hd : 0 < g.factorDen) {ops : List Op} (hok : ∀ op ∈ ops, op.Ok) (hr : ∀ op ∈ ops, op.Roomy)
    (hc : (after g ops).crashed = false) : Queued (after g ops) ∧ Inv (after g ops) (books g ops) [] := by
  have h0 : Queued (start g) := by intro id s hg; simp [start, Assoc.get] at hg
  rcases after_inv g hd hok with hI | hx
  rotate_left
  · rw [hc] at hx; cases hx
  rcases run_qd (Inv.start g hd) h0 hok hr with h | h
  · exact ⟨h, hI⟩
  · unfold after at hc; rw [hc] at h; cases h

/-- Data that was accepted and never sent waits in the stream's buffer. -/
theorem waiting {c : Conn} {h : Hist} {gone : List Nat} (hI : Inv c h gone) {id : Nat} (hid : h.ends id < h.acc id) :
    ∃ s, c.get id = some s ∧ s.send.isFlushable = true := by
  rw [hI.tx.acc, hI.tx.ends] at hid
  unfold valAt at hid
  cases hg : Assoc.get c.streams id with
  | none =>
    rw [hg] at hid
    cases hG : Assoc.get c.collected id with
    | none => simp [hG] at hid
    | some s =>
      have := hI.tx.sent id s hG
      simp [hG] at hid
      omega
  | some s =>
    rw [hg] at hid
    obtain ⟨W, hW⟩ := (hI.tx.live id s hg).inv
    exact ⟨s, hg, hW.flushable.mpr ⟨_, hW.unsent (Nat.le_refl _) hid⟩⟩

/-- **C61**, for histories in which every packet that has room for a STREAM frame at all
(more than 12 bytes, the constant the code checks) has room for 19 bytes, the largest
frame header: while some stream has data that is to be sent (for the first time or
again), a packet with room gets a STREAM frame. -/
theorem sends_partial (g : Config) (hd : 0 < g.factorDen) (ops : List Op) (hok : ∀ op ∈ ops, op.Ok)
    (hr : ∀ op ∈ ops, op.Roomy) (hc : (after g ops).crashed = false) (hdead : (after g ops).dead = false)
    (left : Nat) (hl : 19 ≤ left)
    (hs : (∃ id, (books g ops).ends id < (books g ops).acc id) ∨
      ∃ id s, (after g ops).get id = some s ∧ s.send.isFlushable = true) :
    ∃ i off data fin, ((after g ops).step (.outStream left)).2 = .sentStream i off data fin := by
  obtain ⟨hq, hI⟩ := queued g hd hok hr hc
  have hs : ∃ id s, (after g ops).get id = some s ∧ s.send.isFlushable = true := by
    rcases hs with ⟨id, hid⟩ | hs
    · exact ⟨id, waiting hI hid⟩
    · exact hs
  generalize after g ops = c at *
  have hstep : c.step (.outStream left) = outStreamLoop left c.flushable.length c := by
    unfold step outStream
    rw [hc, hdead, if_neg (by simp)]
    simp only
    rw [if_pos (by show left > 12; omega)]
  have h2 := (outStreamLoop_qd hl c.flushable.length c (fun id s hg => ⟨(hI.static hg).key, hI.tx.live id s hg⟩) hq
    hI.shape.flushable (Nat.le_refl _)).2 hs
  rw [← hstep] at h2
  refine h2 ?_ hc
  rw [hstep]; exact outStreamLoop_alive _ _ hI

/-- Events without the bulk of the data. -/
def short : Ev → Ev
  | .sentStream id off d f => .sentStream id off (d.take 1) f
  | e => e

/-- **C61 fails** without that assumption. The stream 2^30 has sent 16384 bytes, so its
next frame header takes 1 + 8 + 4 + 2 = 15 bytes. Another byte is written. The next packet
has 13 bytes left: the stream is taken out of the queue. From then on packets with plenty
of room carry no data of it; further writes are accepted but not sent either. -/
theorem stranded : ((start {}).run [.peerParams { bidiRemote := 100000 } 100000 (2 ^ 28 + 1) 0 100000,
      .send (2 ^ 30) (List.replicate 16384 0) false, .outStream 17000,
      .send (2 ^ 30) [1] false, .outStream 13, .outStream 1200,
      .send (2 ^ 30) [2] true, .outStream 1200]).2.map (fun e => short e.2) =
    [.ok, .n 16384, .sentStream (2 ^ 30) 0 [0] false, .n 1, .idle, .idle, .n 1, .idle] := by decide +kernel

/-- With 19 bytes left the data is sent. -/
example : ((start {}).run [.peerParams { bidiRemote := 100 } 100 9 0 100, .send 0 [1, 2] false,
      .outStream 12, .outStream 19]).2.map (·.2) = [.ok, .n 2, .idle, .sentStream 0 0 [1, 2] false] := by decide

end Verif.C61
