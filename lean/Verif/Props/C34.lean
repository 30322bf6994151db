import Verif.Packet.Num

/-!
# C34: Truncated packet numbers are recovered
-/

namespace Verif.C34
open Verif Verif.Packet

/-- The receiver recovers the packet number from its low bytes, if the largest number
it has received is at or above what the sender knows to be acknowledged and is not
ahead of the packet by half the coding window. -/
theorem recovered (pn acked largest : Nat) (hpn : pn < 2 ^ 62) (hl : largest < 2 ^ 62)
    (hlen : pktNumLen pn acked ≤ 4) (hacked : acked ≤ largest)
    (hclose : largest + 1 < pn + 256 ^ pktNumLen pn acked / 2) :
    decodePktNum largest (pn % 256 ^ pktNumLen pn acked) (pktNumLen pn acked) = pn := by
  have hw := pktNumLen_window pn acked
  have hp := pktNumLen_pos pn acked
  generalize pktNumLen pn acked = n at *
  have hn : n = 1 ∨ n = 2 ∨ n = 3 ∨ n = 4 := by omega
  rw [decodePktNum_eq hl hn (Nat.mod_lt _ (Nat.pow_pos (by omega)))]
  simp only
  rcases hn with rfl | rfl | rfl | rfl <;> simp only [Nat.reducePow, Nat.reduceDiv] at * <;>
    (split; · omega
     · split <;> omega)

/-- Whatever the length, the decoder picks a number with the given low bytes within
half a window of the next expected one, unless that number would be negative or not
below 2^62 less a window. -/
theorem nearest (largest t n : Nat) (hl : largest < 2 ^ 62) (hn : 1 ≤ n ∧ n ≤ 4) (ht : t < 256 ^ n) :
    decodePktNum largest t n % 256 ^ n = t ∧
    (decodePktNum largest t n ≤ largest + 1 + 256 ^ n / 2 ∨ decodePktNum largest t n < 256 ^ n) ∧
    (largest + 1 < decodePktNum largest t n + 256 ^ n / 2 ∨ 2 ^ 62 ≤ decodePktNum largest t n + 256 ^ n) := by
  have hn : n = 1 ∨ n = 2 ∨ n = 3 ∨ n = 4 := by omega
  rw [decodePktNum_eq hl hn ht]
  simp only
  rcases hn with rfl | rfl | rfl | rfl <;> simp only [Nat.reducePow, Nat.reduceDiv] at * <;>
    (split; · omega
     · split <;> omega)

/-- The sender uses at most four bytes as long as fewer than 2^31 - 1 packets are
unacknowledged. -/
theorem sendable (pn acked : Nat) : 1 ≤ pktNumLen pn acked ∧ (pktNumLen pn acked ≤ 4 ↔ pn - acked + 1 < 2 ^ 31) :=
  ⟨pktNumLen_pos pn acked, pktNumLen_le pn acked⟩

/-- RFC 9000, A.2 and A.3. -/
example : pktNumLen 0xac5c02 0xabe8b3 = 2 := by decide
example : decodePktNum 0xa82f30ea 0x9b32 2 = 0xa82f9b32 := by decide
/-- An old packet overtaken by almost half a window. -/
example : decodePktNum 1126 (1000 % 256) 1 = 1000 := by decide
/-- One more and it is mistaken for a later one. -/
example : decodePktNum 1127 (1000 % 256) 1 = 1256 := by decide
/-- No packet was acknowledged yet. -/
example : pktNumLen 126 0 = 1 ∧ pktNumLen 127 0 = 2 := by decide

end Verif.C34
