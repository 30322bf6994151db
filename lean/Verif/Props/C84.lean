import Verif.Path.Step

/-!
C84: a packet to a connection ID that is no longer stored is dropped. It does not hold: it
closes the connection.
-/

namespace Verif.Props.C84
open Verif Verif.Path

/-- Any 1-RTT packet that can be decrypted and was sent to a connection ID not stored
closes the connection, whatever else it contains. -/
theorem unknown_closes (c : Conn) (a : Nat × Nat) (len : Nat) (cid : Bytes) (newest : Bool) (fs : List Frame)
    (hopen : c.closed = false) (hlen : len ≠ 0) (hknown : c.server = true ∨ ∃ pid p, c.paths.fromAddrs a = some pid ∧ c.paths.get pid = some p)
    (hgood : ∀ pid, c.paths.fromAddrs a = some pid → (c.paths.get pid).isSome = true)
    (hcid : ∀ e ∈ c.ids.scids.inner, e.cid ≠ cid) : (c.recv a len [.short cid fs newest]).closed = true := by
  have key : ∀ (d : Conn) (pid : Option Nat), d.closed = false → d.ids = c.ids →
      (d.recvLoop pid a len [.short cid fs newest]).1 = true ∧ (d.recvLoop pid a len [.short cid fs newest]).2.closed = true := by
    intro d pid hd hids
    unfold Conn.recvLoop
    have hg : ¬(d.closed = true ∨ len = 0) := by
      rw [hd]
      rintro (h | h)
      · cases h
      · exact hlen h
    rw [if_neg hg]
    have hrp : d.recvPath pid a cid len = some (.error .invalidState, d) := by
      unfold Conn.recvPath
      rw [hids]
      cases hf : c.ids.scids.inner.find? (·.cid == cid) with
      | none => rfl
      | some e =>
        have := List.find?_some hf
        exact absurd (by simpa using this) (hcid e (List.mem_of_find?_eq_some hf))
    simp only [Conn.recvSingle]
    rw [hrp]
    exact ⟨rfl, rfl⟩
  have hone : (c.recvOne a len [.short cid fs newest]).1 = true ∧ (c.recvOne a len [.short cid fs newest]).2.closed = true := by
    unfold Conn.recvOne
    rw [if_neg hlen]
    cases hf : c.paths.fromAddrs a with
    | none =>
      rcases hknown with hs | ⟨pid, p, h, _⟩
      · dsimp only
        rw [hs]
        exact key c none hopen rfl
      · rw [hf] at h; cases h
    | some pid =>
      dsimp only
      cases hp : c.paths.get pid with
      | none => have := hgood pid hf; rw [hp] at this; cases this
      | some p => exact key (c.credit pid len) (some pid) hopen rfl
  unfold Conn.recv
  split
  · rename_i heq; rw [heq] at hone; exact hone.2
  · rename_i heq; rw [heq] at hone; cases hone.1

abbrev s0 : Conn := Conn.start true true (1, 2) 3 3 3 false [1] [2] none none

/-- A client takes the second connection ID of the server and retires the first; then a
packet arrives that it sent before. -/
def late : List Op :=
  [.setLimit 3, .newScid [3] 7 false, .establish, .recv (1, 2) 100 [.short [1] [.other] true],
   .recv (1, 2) 100 [.short [3] [.retire 0] true], .recv (1, 2) 100 [.short [1] [.other] false]]

/-- The order of two packets of a peer that follows the protocol decides whether the
connection survives. -/
theorem dropped_false : ¬ ∀ (ops : List Op) (a : Nat × Nat) (cid : Bytes), (s0.run ops).closed = false →
    (∀ e ∈ (s0.run ops).ids.scids.inner, e.cid ≠ cid) → (s0.run (ops ++ [.recv a 100 [.short cid [.other] false]])).closed = false := by
  intro h
  have := h (late.take 5) (1, 2) [1] rfl (by decide +kernel)
  revert this
  decide +kernel

example : (s0.run (late.take 5)).closed = false ∧ (s0.run late).closed = true ∧
    (s0.run (late.take 3 ++ [.recv (1, 2) 100 [.short [1] [.other] true], .recv (1, 2) 100 [.short [1] [.other] false],
      .recv (1, 2) 100 [.short [3] [.retire 0] true]])).closed = false := ⟨rfl, rfl, rfl⟩

end Verif.Props.C84
