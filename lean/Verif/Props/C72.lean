import Verif.Packet.PnLemmas

/-!
# C72: No nonce is used twice with the same keys
-/

namespace Verif.C72
open Verif Verif.Packet

theorem xor_cancel (a b c : UInt8) (h : a ^^^ b = a ^^^ c) : b = c := by
  have := congrArg (a ^^^ ·) h
  simpa [← UInt8.xor_assoc] using this

theorem zipWith_inj (l a b : Bytes) (ha : a.length = l.length) (hb : b.length = l.length)
    (h : List.zipWith (· ^^^ ·) l a = List.zipWith (· ^^^ ·) l b) : a = b := by
  induction l generalizing a b with
  | nil =>
    rw [List.eq_nil_of_length_eq_zero ha, List.eq_nil_of_length_eq_zero hb]
  | cons x t ih =>
    match a, b with
    | [], _ => cases ha
    | _, [] => cases hb
    | y :: a, z :: b =>
      simp only [List.zipWith_cons_cons, List.cons.injEq] at h
      rw [xor_cancel x y z h.1, ih a b (by simpa using ha) (by simpa using hb) h.2]

/-- For a given IV, different packet numbers give different nonces (all of 12 bytes). -/
theorem nonce_injective (iv : Bytes) (hiv : iv.length = 12) (a b : Nat) (ha : a < 2 ^ 64) (hb : b < 2 ^ 64)
    (h : makeNonce iv a = makeNonce iv b) : a = b := by
  unfold makeNonce at h
  have h := zipWith_inj _ _ _ (by simp [hiv]) (by simp [hiv]) (List.append_cancel_left h)
  have := congrArg beVal h
  rw [beVal_beBytes, beVal_beBytes, Nat.mod_eq_of_lt (by simpa using ha), Nat.mod_eq_of_lt (by simpa using hb)] at this
  exact this

theorem nonce_length (iv : Bytes) (hiv : iv.length = 12) (a : Nat) : (makeNonce iv a).length = 12 := by
  simp [makeNonce, hiv]

/-- Over the whole connection (all packet number spaces, sends that fail, skipped
numbers, acknowledgements), every packet has a larger number than all packets sent
before. -/
theorem increasing (ops : List PnOp) (hok : ∀ op ∈ ops, op.Ok) :
    ∃ s, PnState.run {} ops = some s ∧ s.sent.Pairwise (fun later earlier => earlier.2 < later.2) := by
  obtain ⟨s, e, h, _⟩ := run_inv ops hok {} PnInv.init
  exact ⟨s, e, h.dec⟩

/-- Hence any two packets of a connection are sealed with different nonces. -/
theorem nonces_distinct (iv : Bytes) (hiv : iv.length = 12) (ops : List PnOp) (hok : ∀ op ∈ ops, op.Ok) (s : PnState)
    (hs : PnState.run {} ops = some s) (hmax : s.next ≤ 2 ^ 64) :
    s.sent.Pairwise (fun x y => makeNonce iv x.2 ≠ makeNonce iv y.2) := by
  obtain ⟨s', e, h, _⟩ := run_inv ops hok {} PnInv.init
  rw [hs] at e
  cases e
  refine List.Pairwise.imp_of_mem ?_ h.dec
  intro x y hx hy hlt he
  have hx := h.bound x hx
  have hy := h.bound y hy
  have := nonce_injective iv hiv _ _ (by omega) (by omega) he
  omega

/-! ### Concrete cases -/

example : makeNonce [1, 2, 3, 4, 5, 6, 7, 8, 9, 10, 11, 12] 0x0102 =
    [1, 2, 3, 4, 5, 6, 7, 8, 9, 10, 10, 14] := by decide
/-- Packets in different spaces share the numbers. -/
example : (PnState.run {} [.send 0 12000 1200 false (fun _ => 0) true, .send 1 12000 1200 false (fun _ => 0) true,
    .send 0 12000 1200 false (fun _ => 0) false, .send 0 12000 1200 false (fun _ => 0) true]).map (·.sent) =
    some [(0, 2), (1, 1), (0, 0)] := by decide

end Verif.C72
