import Verif.Qpack.Section
import Verif.Qpack.Rfc

/-! # C97 — QPACK decoding accepts the static-only format, and nothing else

`IsBlock` (Qpack/Spec.lean) is the format of the RFC for field sections without references
to the dynamic table; `rfcTable` its static table. -/

namespace Verif.Props.C97
open Verif Verif.Qpack

/-- **C97, static table.** The decoder's table is the one of the RFC. -/
theorem table : decodeTable = rfcTable := by decide +kernel

/-- **C97, the encoder's table** lists names and values under the indices of the RFC's, names
by their length. -/
theorem encoder_table {n : Nat} {t : List (Bytes × List (Bytes × Nat))}
    (h : encodeTable[n]? = some t) {e : Bytes × List (Bytes × Nat)} (he : e ∈ t)
    {v : Bytes × Nat} (hv : v ∈ e.2) : e.1.length = n ∧ rfcTable[v.2]? = some (e.1, v.1) := by
  obtain ⟨h1, _, h3⟩ := nameOk_ok (bucket_ok h he)
  rw [← table]
  exact ⟨h1, h3 v hv⟩

/-- All indices of the encoder's table. -/
def indices : List Nat := encodeTable.flatMap (fun t => t.flatMap (fun e => e.2.map (·.2)))

/-- **C97**: every entry of the static table is in it, once. -/
theorem encoder_table_all : indices.length = 99 ∧ ∀ i < 99, i ∈ indices := by
  constructor
  · decide +kernel
  · decide +kernel

/-- **C97, everything in the format is decoded** (integers below 2^64 and in at most eleven
bytes), if its size is within the limit. -/
theorem complete {bs : Bytes} {hs : List (Bytes × Bytes)} (h : IsBlock IntShort rfcTable bs hs)
    (m : Nat) (hm : size hs ≤ m) : decode bs m = .ok hs := by
  rw [← table] at h
  rw [decode_complete h, if_pos hm]

/-- Decoding nothing but the format, in full: with a required insert count of zero, since
there is no dynamic table (RFC 9204, 2.2.1 and 4.5.1). -/
def OnlyFormat : Prop := ∀ (bs : Bytes) (m : Nat) (hs : List (Bytes × Bytes)),
  decode bs m = .ok hs → ∃ a b c base, bs = a ++ b ++ c ∧ IsInt 8 a 0 ∧ IsInt 7 b base ∧
    IsLines IsInt rfcTable c hs

/-- **C97, only the format is decoded**, to the headers it denotes, and within the limit.
Missing from `OnlyFormat`: the integers are taken modulo 2^64, and the required insert count
is not looked at (`insert_count_ignored`). -/
theorem only_format_partial {bs : Bytes} {m : Nat} {hs : List (Bytes × Bytes)}
    (h : decode bs m = .ok hs) : IsBlock IntMod rfcTable bs hs ∧ size hs ≤ m := by
  rw [← table]
  exact decode_sound h

/-- **C97 fails**: a section that requires five insertions into the dynamic table is
decoded. -/
theorem insert_count_ignored : ¬ OnlyFormat := by
  intro h
  obtain ⟨a, b, c, base, e, ha, -, -⟩ := h [5, 0, 0xd1] 100 _ (by decide +kernel : decode _ _ =
    .ok [([58, 109, 101, 116, 104, 111, 100], [71, 69, 84])])
  cases a with
  | nil => cases ha
  | cons x y =>
    simp only [List.cons_append, List.cons.injEq] at e
    generalize hz : (0 : Nat) = z at ha
    have e8 : (2 : Nat) ^ 8 = 256 := rfl
    cases ha with
    | small _ h1 => rw [← e.1] at hz; revert hz; decide
    | big _ h1 _ => rw [e8] at hz; omega

/-- **C97, no reference to the dynamic table is followed**: lines that start with such a
reference are refused, whatever follows. -/
theorem no_dynamic {b : UInt8} (t : Bytes) (limit : Nat)
    (hb : (b.toNat / 64 = 2) ∨ (b.toNat / 64 = 1 ∧ b.toNat / 16 % 2 = 0) ∨ b.toNat / 32 = 0) :
    ∃ e, readField limit (b :: t) = .error e := by
  cases hr : readField limit (b :: t) with
  | error e => exact ⟨e, rfl⟩
  | ok r =>
    exfalso
    obtain ⟨h, l, rest⟩ := r
    obtain ⟨a, e, hne, hl, -⟩ := readField_sound hr
    have hlt := b.toNat_lt
    have first : ∀ {n : Nat} {x : Bytes} {f : Bool} {y : Bytes}, b :: t = x ++ y → Flag n x f →
        f = decide (b.toNat / 2 ^ n % 2 = 1) := by
      intro n x f y exy hf
      obtain ⟨b', t', rfl, rfl⟩ := hf
      simp only [List.cons_append, List.cons.injEq] at exy
      rw [exy.1]
    have p7 : (2 : Nat) ^ 7 = 128 := rfl
    have p6 : (2 : Nat) ^ 6 = 64 := rfl
    have p5 : (2 : Nat) ^ 5 = 32 := rfl
    have p4 : (2 : Nat) ^ 4 = 16 := rfl
    cases hl with
    | indexed hi h1 h2 hh =>
      have a1 := first e h1
      have a2 := first e h2
      rw [p7] at a1
      rw [p6] at a2
      simp only [true_eq_decide_iff] at a1 a2
      omega
    | nameRef hi h1 h2 h3 hh hv =>
      rw [List.append_assoc] at e
      have a1 := first e h1
      have a2 := first e h2
      have a3 := first e h3
      rw [p7] at a1
      rw [p6] at a2
      rw [p4] at a3
      simp only [true_eq_decide_iff, false_eq_decide_iff] at a1 a2 a3
      omega
    | literal h1 h2 h3 hn hv =>
      rw [List.append_assoc] at e
      have a1 := first e h1
      have a2 := first e h2
      have a3 := first e h3
      rw [p7] at a1
      rw [p6] at a2
      rw [p5] at a3
      simp only [true_eq_decide_iff, false_eq_decide_iff] at a1 a2 a3
      omega

/-- A dynamic index (`10......`) is refused. -/
example : decode [0, 0, 0x80] 100 = .error .invalidHeaderValue := by decide +kernel
/-- Entry 98 is the last one. -/
example : decode [0, 0, 0xff, 35] 100 = .ok [(ascii "x-frame-options", ascii "sameorigin")] := by
  decide +kernel
example : decode [0, 0, 0xff, 36] 100 = .error .invalidStaticTableIndex := by decide +kernel

end Verif.Props.C97
