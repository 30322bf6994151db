import Verif.Qpack.Section

/-! # C51 — QPACK integers survive a round trip and are never misread

`IsInt` (Qpack/Spec.lean) is the format of the RFC. -/

namespace Verif.Props.C51
open Verif Verif.Qpack

/-- **C51, round trip.** What is written for an integer denotes it in the format, carries
the flag bits above the prefix, and is read back as that integer, whatever follows; if it
does not fit, writing fails for lack of room. -/
theorem roundtrip {v first pre : Nat} (hv : v < 2 ^ 64) (hp : pre ≤ 8)
    (hf : first % 2 ^ pre = 0) (hf2 : first < 256) :
    ∃ b t, Io.Writes (encodeInt v first pre) (b :: t) () ∧ IsInt pre (b :: t) v ∧
      b.toNat / 2 ^ pre = first / 2 ^ pre ∧
      ∀ tail, decodeInt pre ((b :: t) ++ tail) = .ok (v, tail) := by
  obtain ⟨b, t, h1, h2, h3⟩ := encodeInt_writes hv hp hf hf2
  exact ⟨b, t, h1, h2.1, h3, fun tail => decodeInt_complete h2 tail⟩

/-- **C51, every encoding is read** of an integer below 2^64 in at most eleven bytes, also
longer ones than the encoder writes. -/
theorem complete {n v : Nat} {hd : Bytes} (h : IsInt n hd v) (hv : v < 2 ^ 64)
    (hl : hd.length ≤ 11) (tail : Bytes) : decodeInt n (hd ++ tail) = .ok (v, tail) :=
  decodeInt_complete ⟨h, hv, hl⟩ tail

/-- Integers that are never misread, in full. -/
def NeverMisread : Prop := ∀ (n : Nat) (bs : Bytes) (v : Nat) (rest : Bytes), n ≤ 8 →
  decodeInt n bs = .ok (v, rest) → ∃ hd, bs = hd ++ rest ∧ IsInt n hd v

/-- **C51, what is read.** The bytes read are an encoding, in at most eleven bytes, of some
integer, and the value is that integer modulo 2^64: it is the integer denoted if that is
below 2^64. Missing from `NeverMisread`: integers of 2^64 and more may be read as others
(`misread`). -/
theorem read_partial {n : Nat} (hn : n ≤ 8) {bs : Bytes} {v : Nat} {rest : Bytes}
    (h : decodeInt n bs = .ok (v, rest)) :
    ∃ hd w, bs = hd ++ rest ∧ IsInt n hd w ∧ v = w % 2 ^ 64 ∧ (w < 2 ^ 64 → v = w) ∧
      hd.length ≤ 11 := by
  obtain ⟨hd, e, ⟨w, hi, hw⟩, hl⟩ := decodeInt_sound hn h
  exact ⟨hd, w, e, hi, hw, fun c => by rw [hw, Nat.mod_eq_of_lt c], hl⟩

/-- Groups denote one number only. -/
theorem groups_unique {t : Bytes} {a b : Nat} (ha : Groups t a) (hb : Groups t b) : a = b := by
  induction ha generalizing b with
  | last x h =>
    cases hb with
    | last _ _ => rfl
    | more _ h' ht => omega
  | more x h ht ih =>
    cases hb with
    | last _ h' => omega
    | more _ h' ht' => rw [ih ht']

/-- An encoding denotes one integer only. -/
theorem unique {n : Nat} {hd : Bytes} {a b : Nat} (ha : IsInt n hd a) (hb : IsInt n hd b) :
    a = b := by
  cases ha with
  | small x h =>
    cases hb with
    | small _ _ => rfl
    | big _ h' ht => omega
  | big x h ht =>
    cases hb with
    | small _ h' => omega
    | big _ h' ht' => rw [groups_unique ht ht']

/-- Sixty-three and 2^64, in the format. -/
def huge : Bytes := [63, 128, 128, 128, 128, 128, 128, 128, 128, 128, 2]

theorem huge_denotes : IsInt 6 huge (63 + 2 ^ 64) := by
  have h : Groups [128, 128, 128, 128, 128, 128, 128, 128, 128, 2] (2 ^ 64) :=
    .more 128 (by decide) (.more 128 (by decide) (.more 128 (by decide) (.more 128 (by decide)
      (.more 128 (by decide) (.more 128 (by decide) (.more 128 (by decide)
      (.more 128 (by decide) (.more 128 (by decide) (.last 2 (by decide))))))))))
  exact .big 63 (by decide) h

/-- **C51 fails**: the encoding of 2^64 + 63 is read as 63. -/
theorem misread : ¬ NeverMisread := by
  intro h
  obtain ⟨hd, e, hi⟩ := h 6 huge 63 [] (by omega) (by decide)
  rw [List.append_nil] at e
  subst e
  have := unique huge_denotes hi
  omega

/-- 1337 with a five-bit prefix (RFC 7541, C.1.2). -/
example : decodeInt 5 [0x1f, 0x9a, 0x0a] = .ok (1337, []) := by decide
/-- A longer encoding of 31. -/
example : decodeInt 5 [0x1f, 0x80, 0x80, 0x00, 7] = .ok (31, [7]) := by decide
/-- Endless continuation is refused. -/
example : decodeInt 5 (0x1f :: List.replicate 20 0x80) = .error .bufferTooShort := by decide

end Verif.Props.C51
