import Verif.Qpack.Section

/-! # C53 — QPACK decoding enforces the field section size limit -/

namespace Verif.Props.C53
open Verif Verif.Qpack

/-- **C53.** The fields decoded, each counted as name, value and 32 bytes, are within the
limit. -/
theorem limit {bs : Bytes} {m : Nat} {hs : List (Bytes × Bytes)} (h : decode bs m = .ok hs) :
    (hs.map (fun h => h.1.length + h.2.length + 32)).sum ≤ m := (decode_sound h).2

/-- **C53.** So is their number. -/
theorem count {bs : Bytes} {m : Nat} {hs : List (Bytes × Bytes)} (h : decode bs m = .ok hs) :
    32 * hs.length ≤ m := by
  have h1 := limit h
  have : ∀ l : List (Bytes × Bytes), 32 * l.length ≤
      (l.map (fun h => h.1.length + h.2.length + 32)).sum := by
    intro l
    induction l with
    | nil => simp
    | cons x l ih => simp only [List.length_cons, List.map_cons, List.sum_cons]; omega
  have := this hs
  omega

/-- **C53.** Decoding never panics, and always terminates: the model bounds the number of
fields by that of the bytes, and the bound is never hit. -/
theorem no_panic (bs : Bytes) (m : Nat) : decode bs m ≠ .error .panic := decode_ne_panic bs m

/-- **C53, no size is refused needlessly**: a section of the format is decoded if its size
is within the limit, and reported as too large if not. -/
theorem exact {bs : Bytes} {hs : List (Bytes × Bytes)} (h : IsBlock IntShort decodeTable bs hs)
    (m : Nat) : decode bs m =
      if (hs.map (fun h => h.1.length + h.2.length + 32)).sum ≤ m then .ok hs
      else .error .headerListTooLarge := decode_complete h m

/-- `:method: GET` has size 42. -/
example : decode [0, 0, 0xd1] 42 = .ok [([58, 109, 101, 116, 104, 111, 100], [71, 69, 84])] := by
  decide +kernel
example : decode [0, 0, 0xd1] 41 = .error .headerListTooLarge := by decide +kernel

end Verif.Props.C53
