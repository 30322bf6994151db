import Verif.Octets.Model

/-! Helper lemmas about the `octets` model. -/

namespace Verif

theorem beVal_foldl (bs : Bytes) (a : Nat) :
    bs.foldl (fun acc b => acc * 256 + b.toNat) a = a * 256 ^ bs.length + beVal bs := by
  induction bs generalizing a with
  | nil => simp [beVal]
  | cons b bs ih =>
    simp only [List.foldl_cons, List.length_cons, beVal]
    rw [ih, ih (0 * 256 + b.toNat)]
    simp only [Nat.zero_mul, Nat.zero_add, Nat.add_mul, Nat.pow_succ]
    rw [Nat.mul_assoc, Nat.mul_comm 256 (256 ^ bs.length), Nat.add_assoc]

theorem beVal_nil : beVal [] = 0 := rfl

theorem beVal_cons (b : UInt8) (bs : Bytes) :
    beVal (b :: bs) = b.toNat * 256 ^ bs.length + beVal bs := by
  have := beVal_foldl bs (0 * 256 + b.toNat)
  simpa [beVal] using this

theorem beVal_append (bs cs : Bytes) :
    beVal (bs ++ cs) = beVal bs * 256 ^ cs.length + beVal cs := by
  unfold beVal
  rw [List.foldl_append, beVal_foldl]; rfl

theorem u8_lt (b : UInt8) : b.toNat < 256 := UInt8.toNat_lt b

theorem beVal_lt (bs : Bytes) : beVal bs < 256 ^ bs.length := by
  induction bs with
  | nil => simp [beVal]
  | cons b bs ih =>
    rw [beVal_cons, List.length_cons, Nat.pow_succ]
    have := u8_lt b
    have h2 : b.toNat * 256 ^ bs.length ≤ 255 * 256 ^ bs.length :=
      Nat.mul_le_mul_right _ (by omega)
    omega

@[simp] theorem beBytes_length (n v : Nat) : (beBytes n v).length = n := by
  induction n with
  | zero => rfl
  | succ n ih => simp [beBytes, ih]

theorem beVal_beBytes (n v : Nat) : beVal (beBytes n v) = v % 256 ^ n := by
  induction n with
  | zero => simp [beBytes, beVal, Nat.mod_one]
  | succ n ih =>
    rw [beBytes, beVal_cons, ih, beBytes_length]
    simp only [UInt8.toNat_ofNat', Nat.reducePow]
    rw [Nat.pow_succ, Nat.mod_mul, Nat.mul_comm (256 ^ n), Nat.add_comm]

theorem beBytes_beVal (bs : Bytes) : beBytes bs.length (beVal bs) = bs := by
  induction bs with
  | nil => rfl
  | cons b bs ih =>
    have hlt := beVal_lt bs
    have hpos : 0 < 256 ^ bs.length := Nat.pow_pos (by decide)
    have key : ∀ n a v, beBytes n (a * 256 ^ n + v) = beBytes n v := by
      intro n
      induction n with
      | zero => intros; rfl
      | succ n ih =>
        intro a v
        simp only [beBytes]
        have e1 : a * 256 ^ (n + 1) + v = (a * 256) * 256 ^ n + v := by
          rw [Nat.pow_succ]; congr 1; rw [Nat.mul_assoc, Nat.mul_comm 256]
        rw [e1, ih, Nat.add_comm, Nat.add_mul_div_right _ _ (Nat.pow_pos (by decide))]
        congr 1
        apply UInt8.toNat_inj.mp
        simp only [UInt8.toNat_ofNat', Nat.reducePow]
        omega
    rw [List.length_cons, beBytes, beVal_cons, key, ih]
    congr 1
    rw [Nat.add_comm, Nat.add_mul_div_right _ _ hpos, Nat.div_eq_of_lt hlt, Nat.zero_add]
    simp

/-- The bytes `put_varint_with_len v len` writes. -/
def encVarintLen (v len : Nat) : Bytes :=
  match len with
  | 1 => beBytes 1 v
  | 2 => (beBytes 2 v).modify 0 (· ||| 0x40)
  | 4 => (beBytes 4 v).modify 0 (· ||| 0x80)
  | 8 => (beBytes 8 v).modify 0 (· ||| 0xc0)
  | _ => []

/-- `len` is one of the four lengths of a variable-length integer. -/
def IsVarintLen (len : Nat) : Prop := len = 1 ∨ len = 2 ∨ len = 4 ∨ len = 8

theorem encVarintLen_length {v len : Nat} (h : IsVarintLen len) :
    (encVarintLen v len).length = len := by
  rcases h with h | h | h | h <;> subst h <;> simp [encVarintLen]

theorem orAt_overwrite (buf bs : Bytes) (off : Nat) (mask : UInt8)
    (h : off ≤ buf.length) (hb : 0 < bs.length) :
    Cur.orAt (Cur.overwrite buf off bs) off mask
      = Cur.overwrite buf off (bs.modify 0 (· ||| mask)) := by
  unfold Cur.orAt Cur.overwrite
  have hl : (buf.take off).length = off := by simp; omega
  obtain ⟨b, bs, rfl⟩ : ∃ b l, bs = b :: l := by
    cases bs with
    | nil => simp at hb
    | cons b l => exact ⟨b, l, rfl⟩
  simp only [List.append_assoc, List.length_modify, List.cons_append]
  rw [List.modify_eq_take_drop, List.take_append, List.drop_append]
  simp only [hl, Nat.sub_self, List.take_zero, List.append_nil, List.drop_zero,
    List.modifyHead_cons, List.modify_zero_cons, List.cons_append]
  rw [List.take_of_length_le (by omega), List.drop_eq_nil_of_le (by omega)]
  simp

theorem putVarintWithLen_ok (c : Cur) (v len : Nat) (hwf : c.WF) (hl : IsVarintLen len)
    (hcap : len ≤ c.cap) :
    c.putVarintWithLen v len =
      (.ok (), { buf := Cur.overwrite c.buf c.off (encVarintLen v len), off := c.off + len }) := by
  have hcap' := hcap
  unfold Cur.cap at hcap
  unfold Cur.WF at hwf
  unfold Cur.putVarintWithLen
  rw [if_neg (by omega)]
  have h1 : 0 < len := by rcases hl with h | h | h | h <;> omega
  have hn : ¬ c.buf.length < c.off + len := by omega
  rcases hl with h | h | h | h <;> subst h <;>
    simp only [Cur.putU, encVarintLen, if_neg hn]
  all_goals rw [orAt_overwrite _ _ _ _ hwf (by simp)]

theorem putVarintWithLen_short (c : Cur) (v len : Nat) (hcap : c.cap < len) :
    c.putVarintWithLen v len = (.error .tooShort, c) := by
  unfold Cur.putVarintWithLen; rw [if_pos hcap]

/-- To check a statement for all bytes it suffices to check 256 cases. -/
theorem u8_forall {P : UInt8 → Prop} (h : ∀ i : Fin 256, P (UInt8.ofNat i.val)) (b : UInt8) :
    P b := by
  have := h ⟨b.toNat, u8_lt b⟩
  simpa using this

theorem or40 : ∀ b : UInt8, b < 64 → (b ||| 0x40).toNat = b.toNat + 64 := by
  apply u8_forall; decide +kernel
theorem or80 : ∀ b : UInt8, b < 64 → (b ||| 0x80).toNat = b.toNat + 128 := by
  apply u8_forall; decide +kernel
theorem orc0 : ∀ b : UInt8, b < 64 → (b ||| 0xc0).toNat = b.toNat + 192 := by
  apply u8_forall; decide +kernel

theorem varintParseLen_eq : ∀ b : UInt8, varintParseLen b =
    if b.toNat < 64 then 1 else if b.toNat < 128 then 2 else if b.toNat < 192 then 4 else 8 := by
  apply u8_forall; decide +kernel

theorem varintParseLen_isLen (b : UInt8) : IsVarintLen (varintParseLen b) := by
  rw [varintParseLen_eq]; unfold IsVarintLen; repeat' split
  all_goals simp

/-- `get_varint` as a function of the unread bytes. -/
def decVarint (bs : Bytes) : Except OErr (Nat × Nat) :=
  match bs with
  | [] => .error .tooShort
  | b :: _ =>
    let len := varintParseLen b
    if bs.length < len then .error .tooShort
    else .ok (beVal (bs.take len) % 2 ^ (8 * len - 2), len)

theorem getVarint_eq (c : Cur) (h : c.WF) :
    c.getVarint = match decVarint c.rest with
      | .error e => (.error e, c)
      | .ok (v, n) => (.ok v, { c with off := c.off + n }) := by
  unfold Cur.getVarint Cur.peekU Cur.rest decVarint
  unfold Cur.WF at h
  rw [if_neg (by omega)]
  rcases hd : c.buf.drop c.off with _ | ⟨b, bs⟩
  · simp
  · have hlen : c.buf.length - c.off = bs.length + 1 := by
      rw [← List.length_drop, hd]; simp
    have hbv : beVal (List.take 1 (b :: bs)) = b.toNat := by simp [beVal]
    have hob : UInt8.ofNat b.toNat = b := by simp
    have h2 : ¬ c.off > c.buf.length := by omega
    have hm := fun n => Nat.and_two_pow_sub_one_eq_mod (x := beVal (List.take n (b :: bs)))
    rw [if_neg (by simp)]
    simp only [List.length_cons, hbv, hob, Cur.cap, hlen, Cur.getU, Cur.peekU, if_neg h2, hd]
    have hpe := varintParseLen_eq b
    rcases varintParseLen_isLen b with hL | hL | hL | hL <;> rw [hL] at hpe ⊢ <;> simp only
    · have h1 : b.toNat < 64 := by
        by_cases h1 : b.toNat < 64
        · exact h1
        · rw [if_neg h1] at hpe; repeat' split at hpe
          all_goals omega
      rw [if_neg (by omega), if_neg (by omega), if_neg (by omega), hbv, Nat.mod_eq_of_lt (by omega)]
    all_goals
      by_cases hs : bs.length + 1 < varintParseLen b <;> rw [hL] at hs
      · rw [if_pos hs, if_pos hs]
      · rw [if_neg hs, if_neg hs, if_neg hs]
        simp only [← hm]

theorem encVarintLen_head {v len : Nat} (hl : IsVarintLen len) (hv : v < 2 ^ (8 * len - 2)) :
    ∃ b bs, encVarintLen v len = b :: bs ∧ varintParseLen b = len ∧
      beVal (b :: bs) % 2 ^ (8 * len - 2) = v := by
  have gen : ∀ (n : Nat) (mask : UInt8) (m : Nat), v < 64 * 256 ^ n →
      (∀ b : UInt8, b < 64 → (b ||| mask).toNat = b.toNat + 64 * m) →
      (beBytes (n+1) v).modify 0 (· ||| mask) = (UInt8.ofNat (v / 256 ^ n) ||| mask) :: beBytes n v
      ∧ (UInt8.ofNat (v / 256 ^ n) ||| mask).toNat = v / 256 ^ n + 64 * m ∧ v / 256 ^ n < 64
      ∧ beVal ((UInt8.ofNat (v / 256 ^ n) ||| mask) :: beBytes n v) = v + 64 * 256 ^ n * m := by
    intro n mask m hv hmask
    have hd : v / 256 ^ n < 64 := Nat.div_lt_of_lt_mul (by rw [Nat.mul_comm]; exact hv)
    have hb : (UInt8.ofNat (v / 256 ^ n)) < 64 := by
      rw [UInt8.lt_iff_toNat_lt]; simp only [UInt8.toNat_ofNat']
      rw [Nat.mod_eq_of_lt (by omega)]; exact hd
    have hbn : (UInt8.ofNat (v / 256 ^ n)).toNat = v / 256 ^ n := by
      simp only [UInt8.toNat_ofNat']; rw [Nat.mod_eq_of_lt (by omega)]
    have h1 := hmask _ hb
    refine ⟨by simp [beBytes], by omega, hd, ?_⟩
    rw [beVal_cons, beBytes_length, beVal_beBytes, h1, hbn, Nat.add_mul]
    have := Nat.div_add_mod v (256 ^ n)
    rw [Nat.mul_comm (256 ^ n)] at this
    have e : 64 * m * 256 ^ n = 64 * 256 ^ n * m := by
      rw [Nat.mul_assoc, Nat.mul_comm m, ← Nat.mul_assoc]
    omega
  rcases hl with h | h | h | h <;> subst h <;> simp at hv
  · refine ⟨UInt8.ofNat (v / 256 ^ 0), [], by simp [encVarintLen, beBytes], ?_, ?_⟩
    · rw [varintParseLen_eq]; rw [if_pos]; simp; omega
    · simp [beVal]; omega
  · obtain ⟨h1, h2, h3, h4⟩ := gen 1 0x40 1 (by omega) or40
    refine ⟨_, _, h1, ?_, ?_⟩
    · rw [varintParseLen_eq, if_neg (by omega), if_pos (by omega)]
    · rw [h4]; omega
  · obtain ⟨h1, h2, h3, h4⟩ := gen 3 0x80 2 (by omega) or80
    refine ⟨_, _, h1, ?_, ?_⟩
    · rw [varintParseLen_eq, if_neg (by omega), if_neg (by omega), if_pos (by omega)]
    · rw [h4]; omega
  · obtain ⟨h1, h2, h3, h4⟩ := gen 7 0xc0 3 (by omega) orc0
    refine ⟨_, _, h1, ?_, ?_⟩
    · rw [varintParseLen_eq, if_neg (by omega), if_neg (by omega), if_neg (by omega)]
    · rw [h4]; omega

theorem decVarint_enc {v len : Nat} (hl : IsVarintLen len) (hv : v < 2 ^ (8 * len - 2))
    (tail : Bytes) : decVarint (encVarintLen v len ++ tail) = .ok (v, len) := by
  obtain ⟨b, bs, he, hp, hval⟩ := encVarintLen_head hl hv
  have hlen := encVarintLen_length (v := v) hl
  rw [he] at hlen ⊢
  simp only [decVarint, List.cons_append, hp]
  rw [if_neg (by simp at hlen ⊢; omega)]
  rw [← List.cons_append, List.take_append_of_le_length (by omega),
    List.take_of_length_le (by omega), hval]

theorem varintLen_spec {v : Nat} (h : v < 2 ^ 62) :
    ∃ len, varintLen v = some len ∧ IsVarintLen len ∧ v < 2 ^ (8 * len - 2) := by
  unfold varintLen maxVarInt IsVarintLen
  split
  · exact ⟨1, rfl, by simp, by simp; omega⟩
  split
  · exact ⟨2, rfl, by simp, by simp; omega⟩
  split
  · exact ⟨4, rfl, by simp, by simp; omega⟩
  rw [if_pos (by omega)]
  exact ⟨8, rfl, by simp, by simp; omega⟩

theorem overwrite_rest (buf bs : Bytes) (off : Nat) (h : off ≤ buf.length) :
    (Cur.overwrite buf off bs).drop off = bs ++ buf.drop (off + bs.length) := by
  unfold Cur.overwrite
  rw [List.append_assoc, List.drop_append, List.drop_eq_nil_of_le (by simp; omega),
    List.length_take, Nat.min_eq_left h]
  simp


theorem overwrite_length (buf bs : Bytes) (off : Nat) (h : off + bs.length ≤ buf.length) :
    (Cur.overwrite buf off bs).length = buf.length := by
  unfold Cur.overwrite; simp; omega

end Verif
