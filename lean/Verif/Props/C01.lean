import Verif.Octets.Lemmas

/-! # C01 — variable-length integers survive a write/read round trip -/

namespace Verif.C01
open Verif

/-- Specification: the smallest of the four permitted lengths whose payload
(all bits but the two length bits) can hold `v`. -/
def minLen (v : Nat) : Nat :=
  if v < 2 ^ 6 then 1 else if v < 2 ^ 14 then 2 else if v < 2 ^ 30 then 4 else 8

/-- What it means for `bytes` to be a correct encoding of `v`: whatever
surrounds the bytes, a reader positioned at their start reads `v` and moves past
exactly these bytes. -/
def ReadsBack (bytes : Bytes) (v : Nat) : Prop :=
  ∀ pre tail : Bytes,
    Cur.getVarint { buf := pre ++ bytes ++ tail, off := pre.length }
      = (.ok v, { buf := pre ++ bytes ++ tail, off := pre.length + bytes.length })

/-- What it means for a writer to have moved from `c` to `c'` by writing `n`
bytes that encode `v`, touching nothing else. -/
def Wrote (c c' : Cur) (n v : Nat) : Prop :=
  c'.off = c.off + n ∧ c'.buf.length = c.buf.length ∧
  c'.buf.take c.off = c.buf.take c.off ∧
  c'.buf.drop (c.off + n) = c.buf.drop (c.off + n) ∧
  ReadsBack ((c'.buf.drop c.off).take n) v

theorem readsBack_enc {v len : Nat} (hl : IsVarintLen len) (hv : v < 2 ^ (8 * len - 2)) :
    ReadsBack (encVarintLen v len) v := by
  intro pre tail
  rw [getVarint_eq _ (by simp [Cur.WF])]
  have : Cur.rest { buf := pre ++ encVarintLen v len ++ tail, off := pre.length }
      = encVarintLen v len ++ tail := by
    simp [Cur.rest]
  rw [this, decVarint_enc hl hv, encVarintLen_length hl]

/-- Writing with an explicitly chosen length that can hold the value. -/
theorem put_with_len_roundtrip (c : Cur) (hwf : c.WF) (v len : Nat) (hl : IsVarintLen len)
    (hv : v < 2 ^ (8 * len - 2)) :
    (c.cap < len → c.putVarintWithLen v len = (.error .tooShort, c)) ∧
    (len ≤ c.cap → ∃ c', c.putVarintWithLen v len = (.ok (), c') ∧ Wrote c c' len v) := by
  refine ⟨fun h => putVarintWithLen_short c v len h, fun h => ?_⟩
  refine ⟨_, putVarintWithLen_ok c v len hwf hl h, ?_⟩
  have hlen := encVarintLen_length (v := v) hl
  unfold Cur.WF at hwf
  unfold Cur.cap at h
  refine ⟨rfl, overwrite_length _ _ _ (by omega), ?_, ?_, ?_⟩
  · simp only [Cur.overwrite, List.append_assoc]
    rw [List.take_append_of_le_length (by simp; omega), List.take_take]; simp
  · simp only [Cur.overwrite]
    rw [List.drop_append, List.drop_eq_nil_of_le (by simp; omega)]
    simp [hlen, Nat.min_eq_left hwf]
  · rw [overwrite_rest _ _ _ hwf, List.take_append_of_le_length (by omega),
      List.take_of_length_le (by omega)]
    exact readsBack_enc hl hv

/-- **C01.** For every integer below 2^62 and every buffer, writing succeeds
exactly when the minimal encoding fits, writes exactly that many bytes and
nothing else, and the bytes read back to the same integer in any context. -/
theorem varint_roundtrip (c : Cur) (hwf : c.WF) (v : Nat) (hv : v < 2 ^ 62) :
    (c.cap < minLen v → c.putVarint v = (.error .tooShort, c)) ∧
    (minLen v ≤ c.cap → ∃ c', c.putVarint v = (.ok (), c') ∧ Wrote c c' (minLen v) v) := by
  have hm : varintLen v = some (minLen v) ∧ IsVarintLen (minLen v) ∧
      v < 2 ^ (8 * minLen v - 2) := by
    unfold varintLen minLen IsVarintLen maxVarInt
    simp only [Nat.reducePow] at hv ⊢
    by_cases h1 : v < 64
    · rw [if_pos (by omega), if_pos h1]; exact ⟨rfl, by simp, by simp; omega⟩
    rw [if_neg (by omega), if_neg h1]
    by_cases h2 : v < 16384
    · rw [if_pos (by omega), if_pos h2]; exact ⟨rfl, by simp, by simp; omega⟩
    rw [if_neg (by omega), if_neg h2]
    by_cases h3 : v < 1073741824
    · rw [if_pos (by omega), if_pos h3]; exact ⟨rfl, by simp, by simp; omega⟩
    rw [if_neg (by omega), if_neg h3, if_pos (by omega)]; exact ⟨rfl, by simp, by simp; omega⟩
  have := put_with_len_roundtrip c hwf v _ hm.2.1 hm.2.2
  unfold Cur.putVarint
  rw [hm.1]
  exact this

/-- Values of 2^62 and above have no encoding: the writer panics. -/
theorem varint_too_large (c : Cur) (v : Nat) (hv : 2 ^ 62 ≤ v) :
    c.putVarint v = (.error .panic, c) := by
  unfold Cur.putVarint varintLen maxVarInt
  simp only [Nat.reducePow] at hv
  rw [if_neg (by omega), if_neg (by omega), if_neg (by omega), if_neg (by omega)]

/-- A concrete case: 151288809941952652 at offset 1 of a ten byte buffer. -/
example : (Cur.putVarint { buf := List.replicate 10 0, off := 1 } 151288809941952652) =
    (.ok (), { buf := [0, 0xc2, 0x19, 0x7c, 0x5e, 0xff, 0x14, 0xe8, 0x8c, 0], off := 9 }) := by
  decide +kernel

example : (minLen 151288809941952652 ≤ Cur.cap { buf := List.replicate 10 0, off := 1 }) := by
  decide +kernel

end Verif.C01
