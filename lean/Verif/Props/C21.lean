import Verif.Conn.Reach

/-! # C21 — stream data accepted for sending respects the connection's limit -/

namespace Verif.C21
open Verif Stream Verif.Conn Verif.Conn.Conn

/-- **C21**, for send capacity factors up to one. After every history (frames from the
peer, application calls, packets built, acknowledgements and losses), the data accepted
from the application on any set of streams sums up to at most the connection limit the
peer granted; data of abandoned streams counts as far as it had been sent.
Missing: factors above one, for which it is false (`exceeds_limit`). -/
theorem within_limit_partial (g : Config) (hd : 0 < g.factorDen) (hf : g.factorNum ≤ g.factorDen)
    (ops : List Op) (hok : ∀ op ∈ ops, op.Ok) (ids : List Nat) (hn : ids.Nodup) :
    (ids.map (books g ops).acc).sum ≤ (books g ops).lim := by
  obtain ⟨c, hI⟩ := books_inv g hd hok
  have h1 := hI.tx.sum_acc hI.shape.wf.ndL hn
  have hu : (books g ops).unit = true := by
    simp only [books]
    rw [(Hist.of_const _ _).1]
    simpa [Hist.init] using hf
  have h2 := hI.cap (hI.fac hu)
  have h3 := hI.lim
  omega

/-- What is sent lies within what was accepted, whatever the factor, so the bound
holds for the data in STREAM frames as well. -/
theorem sent_le_accepted (g : Config) (hd : 0 < g.factorDen) (ops : List Op) (hok : ∀ op ∈ ops, op.Ok) (id : Nat) :
    (books g ops).ends id ≤ (books g ops).acc id := by
  obtain ⟨c, hI⟩ := books_inv g hd hok
  exact hI.tx.le id

/-- With a send capacity factor of two the limit is not respected: 20 bytes are accepted
and sent where the peer granted 10. -/
theorem exceeds_limit : ∃ g ops, 0 < g.factorDen ∧ (∀ op ∈ ops, op.Ok) ∧
    (books g ops).lim < (books g ops).acc 0 ∧ (books g ops).lim < (books g ops).ends 0 := by
  refine ⟨{ factorNum := 2 }, [.peerParams { bidiRemote := 100 } 10 1 0 50, .send 0 (List.replicate 30 7) false, .outStream 100],
    by decide, ?_, by decide, by decide⟩
  intro op hop
  simp only [List.mem_cons, List.not_mem_nil, or_false] at hop
  rcases hop with rfl | rfl | rfl
  · exact ⟨by decide, by decide, by decide⟩
  · trivial
  · trivial

/-- Two streams share a limit of 10; abandoning the first before anything was sent gives
its share back. -/
example : ((start {}).run [.peerParams { bidiRemote := 100 } 10 2 0 50, .send 0 (List.replicate 7 1) false,
      .send 4 (List.replicate 7 2) false, .shutWrite 0 5 50, .send 4 (List.replicate 7 3) false, .recvMaxData 12,
      .recvDone 50, .send 4 (List.replicate 7 4) true]).2.map (·.2) =
    [.ok, .n 7, .n 3, .ok, .n 7, .ok, .ok, .n 2] := by decide

end Verif.C21
