import Verif.Codec.Lemmas
import Verif.Props.C04
import Verif.Huffman.Encode
import Verif.Qpack.Model
import Verif.Qpack.Spec

/-! The QPACK decoder against the format of `Qpack/Spec.lean`. -/

namespace Verif.Qpack
open Verif Verif.Huffman

/-! ### Bits -/

theorem bit7 (b : UInt8) : b.toNat &&& 0x80 = 0x80 ↔ b.toNat / 2 ^ 7 % 2 = 1 := by
  have : ∀ n < 256, (n &&& 0x80 = 0x80) ↔ n / 2 ^ 7 % 2 = 1 := by decide +kernel
  exact this _ b.toNat_lt

theorem bit7' (b : UInt8) : b.toNat &&& 0x80 = 0 ↔ b.toNat < 128 := by
  have : ∀ n < 256, (n &&& 0x80 = 0) ↔ n < 128 := by decide +kernel
  exact this _ b.toNat_lt

theorem bit6 (b : UInt8) : b.toNat &&& 0x40 = 0x40 ↔ b.toNat / 2 ^ 6 % 2 = 1 := by
  have : ∀ n < 256, (n &&& 0x40 = 0x40) ↔ n / 2 ^ 6 % 2 = 1 := by decide +kernel
  exact this _ b.toNat_lt

theorem bit5 (b : UInt8) : b.toNat &&& 0x20 = 0x20 ↔ b.toNat / 2 ^ 5 % 2 = 1 := by
  have : ∀ n < 256, (n &&& 0x20 = 0x20) ↔ n / 2 ^ 5 % 2 = 1 := by decide +kernel
  exact this _ b.toNat_lt

theorem bit4 (b : UInt8) : b.toNat &&& 0x10 = 0x10 ↔ b.toNat / 2 ^ 4 % 2 = 1 := by
  have : ∀ n < 256, (n &&& 0x10 = 0x10) ↔ n / 2 ^ 4 % 2 = 1 := by decide +kernel
  exact this _ b.toNat_lt

theorem bit3 (b : UInt8) : b.toNat &&& 0x08 = 0x08 ↔ b.toNat / 2 ^ 3 % 2 = 1 := by
  have : ∀ n < 256, (n &&& 0x08 = 0x08) ↔ n / 2 ^ 3 % 2 = 1 := by decide +kernel
  exact this _ b.toNat_lt

theorem Flag.cons {n : Nat} {b : UInt8} {t : Bytes} {f : Bool} (h : Flag n (b :: t) f) :
    (b.toNat / 2 ^ n % 2 = 1) ↔ f = true := by
  obtain ⟨b', t', e, rfl⟩ := h
  cases e
  simp

theorem Flag.mk {n : Nat} (b : UInt8) (t : Bytes) :
    Flag n (b :: t) (decide (b.toNat / 2 ^ n % 2 = 1)) := ⟨b, t, rfl, rfl⟩

theorem Flag.append {n : Nat} {a : Bytes} {f : Bool} (h : Flag n a f) (b : Bytes) :
    Flag n (a ++ b) f := by
  obtain ⟨x, t, rfl, e⟩ := h
  exact ⟨x, t ++ b, rfl, e⟩

/-! ### Integers -/

/-- An integer as the decoder reads it: modulo 2^64. -/
def IntMod : Ints := fun n bs v => ∃ w, IsInt n bs w ∧ v = w % 2 ^ 64

/-- An integer the decoder reads as it is: below 2^64, in at most eleven bytes. -/
def IntShort : Ints := fun n bs v => IsInt n bs v ∧ v < 2 ^ 64 ∧ bs.length ≤ 11

theorem IntShort.mod {n : Nat} {bs : Bytes} {v : Nat} (h : IntShort n bs v) : IntMod n bs v :=
  ⟨v, h.1, (Nat.mod_eq_of_lt h.2.1).symm⟩

theorem Groups.ne_nil {t : Bytes} {v : Nat} (h : Groups t v) : t ≠ [] := by
  cases h <;> simp

theorem IsInt.ne_nil {n : Nat} {bs : Bytes} {v : Nat} (h : IsInt n bs v) : bs ≠ [] := by
  cases h <;> simp

theorem shl64_eq (x k : Nat) : shl64 x k = x * 2 ^ k % 2 ^ 64 := by
  unfold shl64; rw [Nat.shiftLeft_eq]

theorem and_127 (n : Nat) : n &&& 0x7f = n % 128 := Nat.and_two_pow_sub_one_eq_mod n 7

theorem contLoop_sound : ∀ (bs : Bytes) (val shift v : Nat) (rest : Bytes),
    contLoop bs val shift = .ok (v, rest) →
    ∃ t g, bs = t ++ rest ∧ Groups t g ∧ v = (val + g * 2 ^ shift) % 2 ^ 64 ∧
      shift + 7 * t.length ≤ 70 := by
  intro bs
  induction bs with
  | nil => intro val shift v rest h; simp [contLoop] at h
  | cons b bs ih =>
    intro val shift v rest h
    simp only [contLoop] at h
    split at h
    · simp at h
    · rename_i hs
      split at h
      · simp at h
      · rename_i hv
        rw [shl64_eq, and_127] at hv h
        split at h
        · rename_i hb
          rw [bit7'] at hb
          simp only [Except.ok.injEq, Prod.mk.injEq] at h
          obtain ⟨h1, rfl⟩ := h
          refine ⟨[b], b.toNat, rfl, .last b hb, ?_, by simp; omega⟩
          rw [Nat.mod_eq_of_lt hb] at h1 hv
          rw [← h1, ← Nat.mod_eq_of_lt (Nat.lt_of_not_le hv), Nat.add_mod_mod]
        · rename_i hb
          rw [bit7'] at hb
          obtain ⟨t, g, rfl, hg, hv', hl⟩ := ih _ _ _ _ h
          refine ⟨b :: t, _, rfl, .more b (by omega) hg, ?_, by simp; omega⟩
          have hbm : b.toNat % 128 = b.toNat - 128 := by have := b.toNat_lt; omega
          rw [hv', hbm]
          have e1 : (b.toNat - 128 + 128 * g) * 2 ^ shift =
              (b.toNat - 128) * 2 ^ shift + g * 2 ^ (shift + 7) := by
            rw [Nat.pow_add, Nat.add_mul]
            have : (2 : Nat) ^ 7 = 128 := rfl
            rw [this, Nat.mul_comm (2 ^ shift) 128, ← Nat.mul_assoc, Nat.mul_comm g 128]
          rw [e1]
          generalize (b.toNat - 128) * 2 ^ shift = x
          generalize g * 2 ^ (shift + 7) = y
          omega

theorem contLoop_complete {t : Bytes} {g : Nat} (h : Groups t g) : ∀ (val shift : Nat)
    (rest : Bytes), val + g * 2 ^ shift < 2 ^ 64 → shift + 7 * t.length ≤ 70 →
    contLoop (t ++ rest) val shift = .ok (val + g * 2 ^ shift, rest) := by
  induction h with
  | last b hb =>
    intro val shift rest hv hl
    simp only [List.cons_append, List.nil_append, contLoop]
    simp only [List.length_cons, List.length_nil] at hl
    rw [if_neg (by omega), shl64_eq, and_127, Nat.mod_eq_of_lt hb,
      Nat.mod_eq_of_lt (by omega), if_neg (by omega), if_pos ((bit7' b).2 hb)]
  | @more b hb t g ht ih =>
    intro val shift rest hv hl
    have hne := ht.ne_nil
    have hlen : 1 ≤ t.length := by
      cases t with
      | nil => exact absurd rfl hne
      | cons _ _ => simp
    have hbm : b.toNat % 128 = b.toNat - 128 := by have := b.toNat_lt; omega
    have e1 : (b.toNat - 128 + 128 * g) * 2 ^ shift =
        (b.toNat - 128) * 2 ^ shift + g * 2 ^ (shift + 7) := by
      rw [Nat.pow_add, Nat.add_mul]
      have : (2 : Nat) ^ 7 = 128 := rfl
      rw [this, Nat.mul_comm (2 ^ shift) 128, ← Nat.mul_assoc, Nat.mul_comm g 128]
    simp only [List.cons_append, contLoop]
    simp only [List.length_cons] at hl
    rw [e1] at hv ⊢
    rw [if_neg (by omega), shl64_eq, and_127, hbm, Nat.mod_eq_of_lt (by omega),
      if_neg (by omega), if_neg (by rw [bit7']; omega), ih _ _ _ (by omega) (by omega)]
    rw [Nat.add_assoc]

theorem and_mask (n p : Nat) : n &&& (2 ^ p - 1) = n % 2 ^ p :=
  Nat.and_two_pow_sub_one_eq_mod n p

theorem decodeInt_sound {n : Nat} (hn : n ≤ 8) {bs : Bytes} {v : Nat} {rest : Bytes}
    (h : decodeInt n bs = .ok (v, rest)) :
    ∃ hd, bs = hd ++ rest ∧ IntMod n hd v ∧ hd.length ≤ 11 := by
  cases bs with
  | nil => simp [decodeInt] at h
  | cons b t =>
    simp only [decodeInt] at h
    rw [and_mask] at h
    have hp : 2 ^ n ≤ 2 ^ 8 := Nat.pow_le_pow_right (by omega) hn
    have hpos : 0 < 2 ^ n := Nat.two_pow_pos n
    have hlt := Nat.mod_lt b.toNat hpos
    split at h
    · rename_i hv
      simp only [Except.ok.injEq, Prod.mk.injEq] at h
      obtain ⟨rfl, rfl⟩ := h
      exact ⟨[b], rfl, ⟨_, .small b hv, (Nat.mod_eq_of_lt (by omega)).symm⟩, by simp⟩
    · rename_i hv
      obtain ⟨hd, g, rfl, hg, hv', hl⟩ := contLoop_sound _ _ _ _ _ h
      refine ⟨b :: hd, rfl, ⟨_, .big b (by omega) hg, ?_⟩, by simp; omega⟩
      rw [hv', show b.toNat % 2 ^ n = 2 ^ n - 1 by omega, Nat.pow_zero, Nat.mul_one]

theorem decodeInt_complete {n : Nat} {hd : Bytes} {v : Nat} (h : IntShort n hd v)
    (rest : Bytes) : decodeInt n (hd ++ rest) = .ok (v, rest) := by
  obtain ⟨hi, hv, hl⟩ := h
  cases hi with
  | small b hb =>
    simp only [List.cons_append, List.nil_append, decodeInt]
    rw [and_mask, if_pos hb]
  | @big b hb t g ht =>
    simp only [List.cons_append, decodeInt]
    simp only [List.length_cons] at hl
    rw [and_mask, if_neg (by omega), contLoop_complete ht _ _ _ (by rw [hb]; simp; omega)
      (by omega), hb, Nat.pow_zero, Nat.mul_one]

theorem contLoop_ne_panic : ∀ (bs : Bytes) (val shift : Nat),
    contLoop bs val shift ≠ .error .panic := by
  intro bs
  induction bs with
  | nil => intro val shift; simp [contLoop]
  | cons b bs ih =>
    intro val shift
    simp only [contLoop]
    split
    · simp
    · split
      · simp
      · split
        · simp
        · exact ih _ _

theorem decodeInt_ne_panic (n : Nat) (bs : Bytes) : decodeInt n bs ≠ .error .panic := by
  cases bs with
  | nil => simp [decodeInt]
  | cons b t =>
    simp only [decodeInt]
    split
    · simp
    · exact contLoop_ne_panic _ _ _

/-! ### Strings -/

theorem withSlice_rest (bs : Bytes) : (Cur.withSlice bs).rest = bs := rfl

theorem takeStr_sound {huff : Bool} {len limit : Nat} {bs s rest : Bytes}
    (h : takeStr huff len limit bs = .ok (s, rest)) :
    ∃ raw, bs = raw ++ rest ∧ raw.length = len ∧ s.length ≤ limit ∧
      if huff = true then Valid (bytesBits raw) s else s = raw := by
  unfold takeStr at h
  split at h
  · simp at h
  · rename_i hl
    have hlen : (bs.take len).length = len := by simp; omega
    cases huff with
    | true =>
      rw [if_pos rfl] at h
      split at h
      · rename_i s' hs
        simp only [Except.ok.injEq, Prod.mk.injEq] at h
        obtain ⟨rfl, rfl⟩ := h
        rw [C04.decode_iff, withSlice_rest] at hs
        exact ⟨bs.take len, (List.take_append_drop len bs).symm, hlen, hs.2, by simpa using hs.1⟩
      · simp at h
    | false =>
      rw [if_neg (by simp)] at h
      split at h
      · simp at h
      · simp only [Except.ok.injEq, Prod.mk.injEq] at h
        obtain ⟨rfl, rfl⟩ := h
        exact ⟨bs.take len, (List.take_append_drop len bs).symm, hlen, by omega, by simp⟩

theorem takeStr_complete {huff : Bool} {raw s : Bytes} (limit : Nat)
    (h : if huff = true then Valid (bytesBits raw) s else s = raw) (rest : Bytes) :
    takeStr huff raw.length limit (raw ++ rest) =
      if s.length ≤ limit then .ok (s, rest) else .error .headerListTooLarge := by
  unfold takeStr
  rw [if_neg (by simp), List.take_left, List.drop_left]
  cases huff with
  | true =>
    rw [if_pos rfl]
    rw [if_pos rfl] at h
    by_cases hl : s.length ≤ limit
    · have := (C04.decode_iff (Cur.withSlice raw) limit s).2 ⟨h, hl⟩
      rw [this, if_pos hl]
    · rw [if_neg hl]
      split
      · rename_i s' hs
        exfalso
        rw [C04.decode_iff, withSlice_rest] at hs
        have h1 := (C04.decode_iff (Cur.withSlice raw) (max s.length s'.length) s).2
          ⟨h, by omega⟩
        have h2 := (C04.decode_iff (Cur.withSlice raw) (max s.length s'.length) s').2
          ⟨hs.1, by omega⟩
        rw [h1] at h2
        simp only [Except.ok.injEq] at h2
        subst h2
        omega
      · rfl
  | false =>
    rw [if_neg (by simp)] at h ⊢
    subst h
    by_cases hl : s.length ≤ limit
    · rw [if_neg (by omega), if_pos hl]
    · rw [if_pos (by omega), if_neg hl]

theorem takeStr_ne_panic (huff : Bool) (len limit : Nat) (bs : Bytes) :
    takeStr huff len limit bs ≠ .error .panic := by
  unfold takeStr
  split
  · simp
  · split
    · split <;> simp
    · split <;> simp

theorem flag_byte {n : Nat} {b : UInt8} {t hd rest : Bytes} (h : b :: t = hd ++ rest)
    (hne : hd ≠ []) : ∃ t', hd = b :: t' := by
  cases hd with
  | nil => exact absurd rfl hne
  | cons x t' => simp only [List.cons_append, List.cons.injEq] at h; exact ⟨t', by rw [h.1]⟩

theorem IntMod.ne_nil {n : Nat} {bs : Bytes} {v : Nat} (h : IntMod n bs v) : bs ≠ [] := by
  obtain ⟨w, h, _⟩ := h; exact h.ne_nil

theorem beq_decide {a b : Nat} {p : Prop} [Decidable p] (h : a = b ↔ p) :
    (a == b) = decide p := by
  by_cases hp : p
  · rw [decide_eq_true hp, beq_iff_eq]; exact h.2 hp
  · rw [decide_eq_false hp, beq_eq_false_iff_ne]; exact fun e => hp (h.1 e)

theorem decodeStr_sound {limit : Nat} {bs s rest : Bytes}
    (h : decodeStr limit bs = .ok (s, rest)) :
    ∃ a, bs = a ++ rest ∧ IsStr IntMod 7 a s ∧ s.length ≤ limit := by
  cases bs with
  | nil => simp [decodeStr] at h
  | cons b t =>
    simp only [decodeStr] at h
    split at h
    · simp at h
    · rename_i len t' hd
      obtain ⟨hd', e, hi, _⟩ := decodeInt_sound (by omega) hd
      obtain ⟨raw, rfl, hlen, hs, hv⟩ := takeStr_sound h
      obtain ⟨t'', rfl⟩ := flag_byte (n := 7) e hi.ne_nil
      refine ⟨(b :: t'') ++ raw, by rw [e]; simp, ⟨b :: t'', raw, _, rfl, hlen ▸ hi,
        Flag.mk b t'', ?_⟩, hs⟩
      rw [← beq_decide (bit7 b)]
      exact hv

theorem decodeStr_complete {bs s : Bytes} (h : IsStr IntShort 7 bs s) (limit : Nat)
    (rest : Bytes) : decodeStr limit (bs ++ rest) =
      if s.length ≤ limit then .ok (s, rest) else .error .headerListTooLarge := by
  obtain ⟨hd, raw, f, rfl, hi, hf, hs⟩ := h
  obtain ⟨b, t, rfl, rfl⟩ := hf
  have hd' := decodeInt_complete hi (raw ++ rest)
  rw [List.append_assoc]
  unfold decodeStr
  simp only [List.cons_append] at hd' ⊢
  rw [hd']
  dsimp only
  rw [beq_decide (bit7 b)]
  exact takeStr_complete limit hs rest

theorem decodeStr_ne_panic (limit : Nat) (bs : Bytes) : decodeStr limit bs ≠ .error .panic := by
  cases bs with
  | nil => simp [decodeStr]
  | cons b t =>
    simp only [decodeStr]
    split
    · rename_i e he
      intro hx
      simp only [Except.error.injEq] at hx
      subst hx
      exact decodeInt_ne_panic _ _ he
    · exact takeStr_ne_panic _ _ _ _

/-! ### Field lines -/

/-- The size of a field (RFC 9114, 4.2.2). -/
def fieldSize (h : Header) : Nat := h.1.length + h.2.length + 32

theorem spend_ok {limit len l : Nat} (h : spend limit len = .ok l) : l + len = limit := by
  unfold spend at h
  split at h
  · simp at h
  · simp only [Except.ok.injEq] at h; omega

theorem spend_eq (limit len : Nat) : spend limit len =
    if len ≤ limit then .ok (limit - len) else .error .headerListTooLarge := by
  unfold spend
  by_cases h : len ≤ limit
  · rw [if_neg (by omega), if_pos h]
  · rw [if_pos (by omega), if_neg h]

theorem spend_ne_panic (limit len : Nat) : spend limit len ≠ .error .panic := by
  unfold spend; split <;> simp

theorem staticEntry_ok {i : Nat} {h : Header} : staticEntry i = .ok h ↔
    decodeTable[i]? = some h := by
  unfold staticEntry
  split <;> rename_i e <;> rw [e] <;> simp

theorem staticEntry_ne_panic (i : Nat) : staticEntry i ≠ .error .panic := by
  unfold staticEntry; split <;> simp

theorem readValue_sound {name : Bytes} {limit l : Nat} {bs rest : Bytes} {h : Header}
    (hr : readValue name limit bs = .ok (h, l, rest)) :
    ∃ b value, bs = b ++ rest ∧ h = (name, value) ∧ IsStr IntMod 7 b value ∧
      l + value.length = limit := by
  unfold readValue at hr
  split at hr
  · simp at hr
  · rename_i value t hd
    split at hr
    · simp at hr
    · rename_i l' hl
      simp only [Except.ok.injEq, Prod.mk.injEq] at hr
      obtain ⟨rfl, rfl, rfl⟩ := hr
      obtain ⟨b, rfl, hs, _⟩ := decodeStr_sound hd
      exact ⟨b, value, rfl, rfl, hs, spend_ok hl⟩

theorem readValue_complete {name value b : Bytes} (h : IsStr IntShort 7 b value) (limit : Nat)
    (rest : Bytes) : readValue name limit (b ++ rest) =
      if value.length ≤ limit then .ok ((name, value), limit - value.length, rest)
      else .error .headerListTooLarge := by
  unfold readValue
  rw [decodeStr_complete h]
  by_cases hl : value.length ≤ limit
  · rw [if_pos hl, if_pos hl]
    dsimp only
    rw [spend_eq, if_pos hl]
  · rw [if_neg hl, if_neg hl]

theorem readValue_ne_panic (name : Bytes) (limit : Nat) (bs : Bytes) :
    readValue name limit bs ≠ .error .panic := by
  unfold readValue
  split
  · rename_i e he
    intro hx
    simp only [Except.error.injEq] at hx
    subst hx
    exact decodeStr_ne_panic _ _ he
  · split
    · rename_i e he
      intro hx
      simp only [Except.error.injEq] at hx
      subst hx
      exact spend_ne_panic _ _ he
    · simp

theorem fromByte_spec (b : UInt8) :
    Repr.fromByte b.toNat =
      if b.toNat / 2 ^ 7 % 2 = 1 then .indexed
      else if b.toNat / 2 ^ 6 % 2 = 1 then .literalWithNameRef
      else if b.toNat / 2 ^ 5 % 2 = 1 then .literal
      else if b.toNat / 2 ^ 4 % 2 = 1 then .indexedWithPostBase
      else .literalWithPostBase := by
  unfold Repr.fromByte
  simp only [bit7, bit6, bit5, bit4]

/-- **One line read is a line of the format**, and what is left to spend is less by its
size. -/
theorem readField_sound {limit l : Nat} {bs rest : Bytes} {h : Header}
    (hr : readField limit bs = .ok (h, l, rest)) :
    ∃ a, bs = a ++ rest ∧ a ≠ [] ∧ IsLine IntMod decodeTable a h ∧
      l + fieldSize h = limit := by
  cases bs with
  | nil => simp [readField] at hr
  | cons b t =>
    simp only [readField] at hr
    rw [fromByte_spec] at hr
    split at hr
    · simp at hr
    · rename_i l0 hl0
      have hl0 := spend_ok hl0
      by_cases c7 : b.toNat / 2 ^ 7 % 2 = 1
      · rw [if_pos c7] at hr
        dsimp only at hr
        unfold readIndexed at hr
        split at hr
        · simp at hr
        · rename_i idx t' hd
          obtain ⟨hd', e, hi, _⟩ := decodeInt_sound (by omega) hd
          obtain ⟨t'', rfl⟩ := flag_byte (n := 6) e hi.ne_nil
          split at hr
          · rename_i c6
            rw [bit6] at c6
            split at hr
            · simp at hr
            · rename_i h' hs
              split at hr
              · simp at hr
              · rename_i l' hl'
                simp only [Except.ok.injEq, Prod.mk.injEq] at hr
                obtain ⟨rfl, rfl, rfl⟩ := hr
                have := spend_ok hl'
                refine ⟨b :: t'', e, by simp, .indexed hi ?_ ?_ (staticEntry_ok.1 hs), ?_⟩
                · exact ⟨b, t'', rfl, (decide_eq_true c7).symm⟩
                · exact ⟨b, t'', rfl, (decide_eq_true c6).symm⟩
                · unfold fieldSize; omega
          · simp at hr
      · rw [if_neg c7] at hr
        have f7 : ∀ t, Flag 7 (b :: t) false :=
          fun t => ⟨b, t, rfl, (decide_eq_false c7).symm⟩
        by_cases c6 : b.toNat / 2 ^ 6 % 2 = 1
        · rw [if_pos c6] at hr
          dsimp only at hr
          unfold readNameRef at hr
          split at hr
          · rename_i c4
            rw [bit4] at c4
            split at hr
            · simp at hr
            · rename_i idx t' hd
              obtain ⟨hd', e, hi, _⟩ := decodeInt_sound (by omega) hd
              obtain ⟨t'', rfl⟩ := flag_byte (n := 4) e hi.ne_nil
              split at hr
              · simp at hr
              · rename_i h' hs
                split at hr
                · simp at hr
                · rename_i l' hl'
                  have := spend_ok hl'
                  obtain ⟨bb, value, rfl, rfl, hv, hl⟩ := readValue_sound hr
                  refine ⟨(b :: t'') ++ bb, by rw [e]; simp, by simp,
                    .nameRef hi (f7 _) ?_ ?_ (staticEntry_ok.1 hs) hv, ?_⟩
                  · exact ⟨b, t'', rfl, (decide_eq_true c6).symm⟩
                  · exact ⟨b, t'', rfl, (decide_eq_true c4).symm⟩
                  · unfold fieldSize; dsimp only; omega
          · simp at hr
        · rw [if_neg c6] at hr
          by_cases c5 : b.toNat / 2 ^ 5 % 2 = 1
          · rw [if_pos c5] at hr
            dsimp only at hr
            unfold readLiteral at hr
            split at hr
            · simp at hr
            · rename_i len t' hd
              obtain ⟨hd', e, hi, _⟩ := decodeInt_sound (by omega) hd
              obtain ⟨t'', rfl⟩ := flag_byte (n := 3) e hi.ne_nil
              split at hr
              · simp at hr
              · rename_i name t3 hn
                obtain ⟨raw, rfl, hlen, hnl, hname⟩ := takeStr_sound hn
                split at hr
                · simp at hr
                · rename_i l' hl'
                  have := spend_ok hl'
                  obtain ⟨bb, value, rfl, rfl, hv, hl⟩ := readValue_sound hr
                  refine ⟨((b :: t'') ++ raw) ++ bb, by rw [e]; simp, by simp,
                    .literal ?_ ?_ ?_ ⟨b :: t'', raw, _, rfl, hlen ▸ hi, Flag.mk b t'', ?_⟩ hv,
                    ?_⟩
                  · exact (f7 _).append _
                  · exact ⟨b, _, rfl, (decide_eq_false c6).symm⟩
                  · exact ⟨b, _, rfl, (decide_eq_true c5).symm⟩
                  · rw [← beq_decide (bit3 b)]; exact hname
                  · unfold fieldSize; dsimp only; omega
          · rw [if_neg c5] at hr
            split at hr
            all_goals first
              | (split at hr <;> simp at hr)
              | simp at hr
              | skip
            all_goals (rename_i hx; split at hx <;> simp at hx)

/-- **Every line of the format is read**, if its size is within the limit; otherwise the
list is too large. -/
theorem readField_complete {bs : Bytes} {h : Header} (hl : IsLine IntShort decodeTable bs h)
    (limit : Nat) (rest : Bytes) : readField limit (bs ++ rest) =
      if fieldSize h ≤ limit then .ok (h, limit - fieldSize h, rest)
      else .error .headerListTooLarge := by
  have hne : ∀ {n : Nat} {a : Bytes} {v : Nat}, IntShort n a v → ∃ b t, a = b :: t := by
    intro n a v hi
    cases a with
    | nil => exact absurd rfl hi.1.ne_nil
    | cons b t => exact ⟨b, t, rfl⟩
  unfold fieldSize
  by_cases c32 : 32 ≤ limit
  rotate_left
  · rw [if_neg (by omega)]
    have : ∃ b t, bs = b :: t := by
      cases hl with
      | indexed hi h1 h2 hh => exact hne hi
      | nameRef hi h1 h2 h3 hh hv =>
        obtain ⟨b, t, rfl⟩ := hne hi; exact ⟨b, _, rfl⟩
      | literal h1 h2 h3 hn hv =>
        obtain ⟨b, t, rfl, _⟩ := h1; exact ⟨b, _, rfl⟩
    obtain ⟨b, t, rfl⟩ := this
    simp only [List.cons_append, readField]
    rw [spend_eq, if_neg c32]
  cases hl with
  | @indexed _ i h hi h1 h2 hh =>
    obtain ⟨b, t, rfl⟩ := hne hi
    have hd := decodeInt_complete hi rest
    have e7 := (Flag.cons h1).2 rfl
    have e6 := (Flag.cons h2).2 rfl
    simp only [List.cons_append, readField] at hd ⊢
    rw [spend_eq, if_pos c32]
    dsimp only
    rw [fromByte_spec, if_pos e7]
    dsimp only
    unfold readIndexed
    rw [hd]
    dsimp only
    rw [if_pos ((bit6 b).2 e6), staticEntry_ok.2 hh]
    dsimp only
    rw [spend_eq]
    by_cases hs : h.1.length + h.2.length ≤ limit - 32
    · rw [if_pos hs, if_pos (by omega)]
      dsimp only
      rw [Nat.sub_sub, Nat.add_comm 32]
    · rw [if_neg hs, if_neg (by omega)]
  | @nameRef a bb i h value hi h1 h2 h3 hh hv =>
    obtain ⟨b, t, rfl⟩ := hne hi
    have hd := decodeInt_complete hi (bb ++ rest)
    have e7 : ¬ b.toNat / 2 ^ 7 % 2 = 1 := fun e => by simpa using (Flag.cons h1).1 e
    have e6 := (Flag.cons h2).2 rfl
    have e4 := (Flag.cons h3).2 rfl
    rw [List.append_assoc]
    simp only [List.cons_append, readField] at hd ⊢
    rw [spend_eq, if_pos c32]
    dsimp only
    rw [fromByte_spec, if_neg e7, if_pos e6]
    dsimp only
    unfold readNameRef
    rw [if_pos ((bit4 b).2 e4), hd]
    dsimp only
    rw [staticEntry_ok.2 hh]
    dsimp only
    rw [spend_eq]
    by_cases hs : h.1.length ≤ limit - 32
    · rw [if_pos hs]
      dsimp only
      rw [readValue_complete hv]
      by_cases hs' : value.length ≤ limit - 32 - h.1.length
      · rw [if_pos hs', if_pos (by omega)]
        congr 3
        omega
      · rw [if_neg hs', if_neg (by omega)]
    · rw [if_neg hs, if_neg (by omega)]
  | @literal a bb name value h1 h2 h3 hn hv =>
    obtain ⟨hd0, raw, f, rfl, hi, hf, hs0⟩ := hn
    obtain ⟨b, t, rfl, rfl⟩ := hf
    have hd := decodeInt_complete hi (raw ++ (bb ++ rest))
    have e7 : ¬ b.toNat / 2 ^ 7 % 2 = 1 := fun e => by simpa using (Flag.cons h1).1 e
    have e6 : ¬ b.toNat / 2 ^ 6 % 2 = 1 := fun e => by simpa using (Flag.cons h2).1 e
    have e5 := (Flag.cons h3).2 rfl
    rw [List.append_assoc, List.append_assoc]
    simp only [List.cons_append, readField] at hd ⊢
    rw [spend_eq, if_pos c32]
    dsimp only
    rw [fromByte_spec, if_neg e7, if_neg e6, if_pos e5]
    dsimp only
    unfold readLiteral
    rw [hd]
    dsimp only
    rw [beq_decide (bit3 b), takeStr_complete _ hs0]
    by_cases hs : name.length ≤ limit - 32
    · rw [if_pos hs]
      dsimp only
      rw [spend_eq, if_pos hs]
      dsimp only
      rw [readValue_complete hv]
      by_cases hs' : value.length ≤ limit - 32 - name.length
      · rw [if_pos hs', if_pos (by omega)]
        congr 3
        omega
      · rw [if_neg hs', if_neg (by omega)]
    · rw [if_neg hs, if_neg (by omega)]

end Verif.Qpack
