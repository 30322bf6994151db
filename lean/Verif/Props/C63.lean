import Verif.Conn.Reach

/-! # C63 — stream handling never panics -/

namespace Verif.C63
open Verif Verif.Stream Verif.Conn Verif.Conn.Conn

/-- **C63 fails** when the peer's connection limit goes down, as it can between the
parameters remembered for early data and those of the handshake: `max_tx_data - tx_data`
underflows. (With overflow checks compiled out it wraps, and the capacity is unlimited.) -/
theorem reduced_limit_panics : ((start {}).run [.peerParams { uni := 100 } 100 0 9 100,
      .send 2 (List.replicate 20 1) false, .peerParams { uni := 100 } 19 0 9 100]).2.map (·.2) =
    [.ok, .n 20, .panic] := by decide

/-- **C63 fails** for send capacity factors above one, see C21: the next packet from the
peer makes the same subtraction underflow. -/
theorem factor_panics : ((start { factorNum := 2 }).run [.peerParams { uni := 100 } 10 0 9 100,
      .send 2 (List.replicate 20 1) false, .recvDone 100]).2.map (·.2) = [.ok, .n 20, .panic] := by decide

/-- **C63 fails** once the connection is being closed because of an invalid frame: the
half-processed RESET_STREAM of C56 makes a later shutdown underflow. -/
theorem closing_panics : ((start { loc := { uni := 10 }, maxStreamsUni := 1, maxData := 10 }).run
      [.recvReset 3 0 20, .shutRead 3 0]).2.map (·.2) = [.closed (.q .flowControl), .panic] := by decide

/-- **C63**, the part that holds: with a send capacity factor of at most one, whatever
frames arrive and whatever the application does, no operation panics, unless the
connection is already being closed because of an error or transport parameters set a
connection limit below the one granted before. -/
theorem no_panic_partial (g : Config) (hd : 0 < g.factorDen) (hf : g.factorNum ≤ g.factorDen) (ops : List Op)
    (hok : ∀ op ∈ ops, op.Ok) (op : Op) (ho : op.Ok) (hp : ((after g ops).step op).2 = .panic) :
    (after g ops).dead = true ∨ ∃ p d b u w, op = .peerParams p d b u w ∧ d < (books g ops).lim := by
  rcases after_inv g hd hok with hI | hx
  rotate_left
  · have : (after g ops).step op = (after g ops, .idle) := by unfold step; rw [hx]; rfl
    rw [this] at hp; cases hp
  have hu : (books g ops).unit = true := by
    unfold books
    rw [(Hist.of_const _ _).1]
    simpa [Hist.init] using hf
  have hcap := hI.cap (hI.fac hu)
  have hlim := hI.lim
  rcases step_safe hI ho with ⟨h1, -⟩ | ⟨-, -, h1⟩
  · exact absurd hp h1
  · rcases h1 with h1 | h1 | ⟨p, d, b, u, w, rfl, h1⟩
    · exact .inl h1
    · have h2 : (after g ops).maxTxData < (after g ops).txData := h1
      omega
    · exact .inr ⟨p, d, b, u, w, rfl, by have h2 : d < (after g ops).txData := h1; omega⟩

/-- A connection also never runs out of its book-keeping: the count of buffered bytes is
the sum over the streams. -/
theorem buffered_exact (g : Config) (hd : 0 < g.factorDen) (ops : List Op) (hok : ∀ op ∈ ops, op.Ok)
    (hc : (after g ops).crashed = false) :
    (after g ops).txBuffered = ((after g ops).streams.map (fun e => e.2.send.bufferedBytes)).sum := by
  rcases after_inv g hd hok with hI | hx
  · rw [hI.tx.buf]
    generalize (after g ops).streams = L
    induction L with
    | nil => rfl
    | cons e t ih => obtain ⟨i, s⟩ := e; simp [Assoc.sum, ih]
  · rw [hc] at hx; cases hx

end Verif.C63
