import Verif.Conn.Queued

/-! # C62 — the end of a finished stream is sent -/

namespace Verif.C62
open Verif Verif.Stream Verif.Conn Verif.Conn.Conn

/-- **C62 fails.** Twenty bytes are sent in two frames and the first one is lost. Before
it is sent again the application finishes the stream with an empty write, which is
accepted. The first half is sent again, without FIN, as it does not reach the end of the
stream. Nothing else is ever sent; once all frames have been acknowledged the stream is
taken for complete and forgotten. The peer never learns that it has ended. -/
theorem fin_never_sent :
    let ops : List Op := [.peerParams { uni := 100 } 100 0 9 100, .send 2 (List.replicate 20 1) false,
      .outStream 15, .outStream 15, .lost 0, .send 2 [] true, .outStream 15, .outStream 1200, .acked 1, .acked 2,
      .outStream 1200]
    ((start {}).run ops).2.map (·.2) = [.ok, .n 20, .sentStream 2 0 (List.replicate 10 1) false,
      .sentStream 2 10 (List.replicate 10 1) false, .ok, .n 0, .sentStream 2 0 (List.replicate 10 1) false, .idle, .ok, .ok,
      .idle] ∧
    (after {} ops).isCollected 2 = true := by decide +kernel

/-- The frame chosen by the loop. -/
theorem loop_fin (left : Nat) : ∀ (fuel : Nat) (c c' : Conn) (id off : Nat) (data : Bytes) (fin : Bool),
    (∀ id s, c.get id = some s → s.key.id = id ∧ SendOk s) →
    outStreamLoop left fuel c = (c', .sentStream id off data fin) →
    ∃ s, c.get id = some s ∧ fin = (s.send.finOff == some (off + data.length)) := by
  intro fuel
  induction fuel with
  | zero => intro c c' id off data fin _ h; simp [outStreamLoop] at h
  | succ fuel ih =>
    intro c c' id off data fin hk h
    unfold outStreamLoop at h
    split at h
    · cases h
    · next k t hq =>
      split at h
      · exact ih (c.removeFlushable k.id) _ _ _ _ _ hk h
      · next s hg =>
        split at h
        · exact ih (c.removeFlushable k.id) _ _ _ _ _ hk h
        · simp only at h
          split at h
          · exact ih (c.removeFlushable k.id) _ _ _ _ _ hk h
          · obtain ⟨W, hW⟩ := (hk _ _ hg).2.inv
            obtain ⟨b, out, fin', e, ht⟩ :=
              SendBuf.emit_spec hW (left - (1 + Conn.varintLen k.id + Conn.varintLen s.send.offFront + 2))
            rw [e] at h
            simp only at h
            split at h
            · cases h
            · simp only [Prod.mk.injEq, Ev.sentStream.injEq] at h
              obtain ⟨-, rfl, rfl, rfl, rfl⟩ := h
              exact ⟨s, hg, ht.finFlag⟩

/-- **C62**, the part that holds: a frame that reaches the end of the data of a finished
stream (in particular a frame with its last byte) carries FIN, and no other frame does.
What is missing: when the finishing write brings no data, no such frame need ever be
sent. -/
theorem fin_with_end_partial (g : Config) (hd : 0 < g.factorDen) (ops : List Op) (hok : ∀ op ∈ ops, op.Ok)
    (left id off : Nat) (data : Bytes) (fin : Bool)
    (he : ((after g ops).step (.outStream left)).2 = .sentStream id off data fin) :
    ∃ s, (after g ops).get id = some s ∧
      (fin = true ↔ s.send.isFin = true ∧ off + data.length = (books g ops).acc id) := by
  rcases after_inv g hd hok with hI | hx
  rotate_left
  · have : (after g ops).step (.outStream left) = (after g ops, .idle) := by unfold step; rw [hx]; rfl
    rw [this] at he; cases he
  have hl : ∃ c', outStreamLoop left (after g ops).flushable.length (after g ops) = (c', .sentStream id off data fin) := by
    unfold step at he
    split at he
    · cases he
    · simp only at he
      unfold outStream at he
      split at he
      · exact ⟨_, by rw [← he]⟩
      · cases he
  obtain ⟨c', hl⟩ := hl
  obtain ⟨s, hg, hf⟩ := loop_fin left _ _ _ _ _ _ _ (fun id s hg => ⟨(hI.static hg).key, hI.tx.live id s hg⟩) hl
  refine ⟨s, hg, ?_⟩
  obtain ⟨W, hW⟩ := (hI.tx.live id s hg).inv
  have hA : (books g ops).acc id = s.send.off := by rw [hI.tx.acc]; exact valAt_live _ hg
  rw [hf, hA]
  simp only [beq_iff_eq, SendBuf.isFin]
  constructor
  · intro h1; rw [h1]; have := hW.fin _ h1; exact ⟨by rw [this], this⟩
  · rintro ⟨h1, h2⟩; rw [h1, h2]

/-- The usual case: FIN goes out with the last byte, or alone. -/
example : ((start {}).run [.peerParams { uni := 100 } 100 0 9 100, .send 2 [1, 2] true, .outStream 15,
      .send 6 [3] false, .outStream 15, .send 6 [] true, .outStream 15]).2.map (·.2) =
    [.ok, .n 2, .sentStream 2 0 [1, 2] true, .n 1, .sentStream 6 0 [3] false, .n 0, .sentStream 6 1 [] true] := by decide

end Verif.C62
