import Verif.Huffman.Decode
import Verif.Qpack.Table

/-!
The format of QPACK field sections that use the static table only (RFC 9204, sections 4.1
and 4.5), apart from the code.
-/

namespace Verif.Qpack
open Verif Verif.Huffman

/-- Little-endian groups of seven bits; the last one has the top bit clear. -/
inductive Groups : Bytes → Nat → Prop where
  | last (b : UInt8) (h : b.toNat < 128) : Groups [b] b.toNat
  | more (b : UInt8) (h : 128 ≤ b.toNat) {t : Bytes} {v : Nat} (ht : Groups t v) :
      Groups (b :: t) (b.toNat - 128 + 128 * v)

/-- An integer with an `n`-bit prefix (RFC 9204, 4.1.1). -/
inductive IsInt (n : Nat) : Bytes → Nat → Prop where
  | small (b : UInt8) (h : b.toNat % 2 ^ n < 2 ^ n - 1) : IsInt n [b] (b.toNat % 2 ^ n)
  | big (b : UInt8) (h : b.toNat % 2 ^ n = 2 ^ n - 1) {t : Bytes} {v : Nat} (ht : Groups t v) :
      IsInt n (b :: t) (2 ^ n - 1 + v)

/-- Bit `n` of the first byte. -/
def Flag (n : Nat) (bs : Bytes) (f : Bool) : Prop :=
  ∃ b t, bs = b :: t ∧ f = decide (b.toNat / 2 ^ n % 2 = 1)

/-- The integers of a format: those of the RFC are `IsInt`. -/
abbrev Ints := Nat → Bytes → Nat → Prop

/-- A string literal with an `n`-bit prefix for its length, below the Huffman flag
(RFC 9204, 4.1.2). -/
def IsStr (I : Ints) (n : Nat) (bs : Bytes) (s : Bytes) : Prop :=
  ∃ hd raw f, bs = hd ++ raw ∧ I n hd raw.length ∧ Flag n hd f ∧
    if f = true then Valid (bytesBits raw) s else s = raw

/-- A field line (RFC 9204, 4.5.2, 4.5.4 and 4.5.6), with a table for the static one. -/
inductive IsLine (I : Ints) (table : List (Bytes × Bytes)) : Bytes → (Bytes × Bytes) → Prop where
  | indexed {bs : Bytes} {i : Nat} {h : (Bytes × Bytes)} (hi : I 6 bs i) (h1 : Flag 7 bs true)
      (h2 : Flag 6 bs true) (hh : table[i]? = some h) : IsLine I table bs h
  | nameRef {a b : Bytes} {i : Nat} {h : (Bytes × Bytes)} {value : Bytes} (hi : I 4 a i)
      (h1 : Flag 7 a false) (h2 : Flag 6 a true) (h3 : Flag 4 a true)
      (hh : table[i]? = some h) (hv : IsStr I 7 b value) :
      IsLine I table (a ++ b) (h.1, value)
  | literal {a b : Bytes} {name value : Bytes} (h1 : Flag 7 a false) (h2 : Flag 6 a false)
      (h3 : Flag 5 a true) (hn : IsStr I 3 a name) (hv : IsStr I 7 b value) :
      IsLine I table (a ++ b) (name, value)

/-- Field lines one after the other. -/
inductive IsLines (I : Ints) (table : List (Bytes × Bytes)) : Bytes → List (Bytes × Bytes) → Prop where
  | nil : IsLines I table [] []
  | cons {a b : Bytes} {h : (Bytes × Bytes)} {hs : List (Bytes × Bytes)} (ha : IsLine I table a h)
      (hb : IsLines I table b hs) : IsLines I table (a ++ b) (h :: hs)

/-- A field section: required insert count, base, lines (RFC 9204, 4.5.1). -/
def IsBlock (I : Ints) (table : List (Bytes × Bytes)) (bs : Bytes) (hs : List (Bytes × Bytes)) : Prop :=
  ∃ a b c ric base, bs = a ++ b ++ c ∧ I 8 a ric ∧ I 7 b base ∧ IsLines I table c hs

/-- The size of a field section (RFC 9114, 4.2.2). -/
def size (hs : List (Bytes × Bytes)) : Nat :=
  (hs.map (fun h => h.1.length + h.2.length + 32)).sum

end Verif.Qpack
