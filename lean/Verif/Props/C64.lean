import Verif.Conn.Reach

/-! # C64 — finished peer streams are forgotten and give back stream credit -/

namespace Verif.C64
open Verif Verif.Stream Verif.Conn Verif.Conn.Conn

/-- The configuration of the examples: one unidirectional stream at a time. -/
def one : Config := { maxStreamsUni := 1, loc := { uni := 10 }, maxData := 10 }

/-- **C64 fails** after `stream_shutdown(Read)`. The peer finishes the stream, all its
data has arrived, the application is done with it: but no call and no frame makes the
endpoint forget the stream, the limit on streams is not raised, and the peer's next
stream would be refused. -/
theorem stream_leaks : ((start one).run [.recvStream 3 0 [1] false, .shutRead 3 5, .outStop 3 true,
      .recvStream 3 1 [2] true, .recv 3 10, .readableNext, .acked 0, .capacity 3, .shutRead 3 5, .send 3 [] true,
      .outMaxStreams false true, .recvStream 7 0 [1] false]).2.map (·.2) =
    [.ok, .ok, .sentStop 5, .ok, .err .done, .next none, .ok, .n 0, .err .done, .err (.invalidStreamState 3), .idle,
      .closed (.q .streamLimit)] := by decide

/-- What a successful read returns with the data is whether the end has been reached. -/
theorem emit_fin {r r' : RecvBuf} {cap : Nat} {out : Bytes} {fin : Bool}
    (h : r.emit cap = (.ok (out, fin), r')) : fin = r'.isFin := by
  unfold RecvBuf.emit at h
  split at h
  · cases h
  · split at h
    · cases h
    · simp only [Prod.mk.injEq, Except.ok.injEq] at h
      obtain ⟨⟨-, rfl⟩, rfl⟩ := h
      rfl

theorem counts_fc (c : Conn) (x) (b : Bool) : ({ c with fc := x } : Conn).counts b = c.counts b := rfl

/-- **C64**, the part that holds: when a read returns the end of a unidirectional stream
of the peer, the stream is forgotten at once, and the limit to be announced on such
streams goes up by one. What is missing are streams shut down for reading; nothing is
claimed for streams whose end is never reported (C14, C55). -/
theorem read_to_end_partial (g : Config) (hd : 0 < g.factorDen) (ops : List Op) (hok : ∀ op ∈ ops, op.Ok)
    (id cap : Nat) (hb : isBidi id = false) (data : Bytes)
    (he : ((after g ops).step (.recv id cap)).2 = .got data true) :
    ((after g ops).step (.recv id cap)).1.isCollected id = true ∧
    ((after g ops).step (.recv id cap)).1.get id = none ∧
    (((after g ops).step (.recv id cap)).1.counts false).localMaxNext =
      ((after g ops).counts false).localMaxNext + 1 := by
  rcases after_inv g hd hok with hI | hx
  rotate_left
  · have : (after g ops).step (.recv id cap) = (after g ops, .idle) := by unfold step; rw [hx]; rfl
    rw [this] at he; cases he
  generalize after g ops = c at *
  have hn := hI.shape.wf.ndL
  have hstep : c.step (.recv id cap) = c.recvData id cap ∨ (c.step (.recv id cap)).2 = .idle := by
    unfold step; split
    · exact .inr rfl
    · exact .inl rfl
  rcases hstep with hstep | hstep
  rotate_left
  · rw [hstep] at he; cases he
  rw [hstep] at he ⊢
  unfold recvData at he ⊢
  split at he
  · cases he
  · next hloc =>
    have hloc : isLocal id c.isServer = false := by simpa [hb] using hloc
    rw [if_neg (by simp [hloc])]
    cases hs : c.get id with
    | none => rw [hs] at he; cases he
    | some s =>
    rw [hs] at he
    simp only at he ⊢
    have hst := hI.static hs
    split at he
    · cases he
    · next hr =>
      rw [if_neg hr]
      generalize hem : s.recv.emit cap = x at he ⊢
      obtain ⟨x, r⟩ := x
      cases x with
      | error e => cases he
      | ok y =>
        obtain ⟨out, f⟩ := y
        simp only at he ⊢
        cases haf : r.almostFull with
        | none => rw [haf] at he; cases he
        | some af =>
          rw [haf] at he
          simp only [Ev.got.injEq] at he ⊢
          obtain ⟨rfl, rfl⟩ := he
          have hf := (emit_fin hem).symm
          have hco : ({ s with recv := r } : Stream).isComplete = true := by
            simp [Stream.isComplete, hst.bidi, hb, hst.loc, hloc, hf]
          rw [if_pos hco]
          refine ⟨?_, ?_, ?_⟩
          · simp [isCollected, collect, Assoc.get_put]
          · simp only [Conn.get, collect_streams]
            refine Assoc.get_del_self ?_ _
            simp only [streams_ite, removeReadable_streams, insertAlmostFull_streams, put_streams, ite_self]
            exact Assoc.nodup_put hn _ _
          · rw [collect_counts, if_pos ⟨by simp [hst.loc, hloc], hb.symm⟩]
            simp only [counts_ite, removeReadable_counts, insertAlmostFull_counts, counts_fc, put_counts, ite_self]

/-- The usual case. -/
example : ((start one).run [.recvStream 3 0 [1] false, .recvStream 3 1 [2] true, .recv 3 10, .outMaxStreams false true,
      .recvStream 7 0 [1] false]).2.map (·.2) = [.ok, .ok, .got [1, 2] true, .sentMaxStreams 2, .ok] := by decide

end Verif.C64
