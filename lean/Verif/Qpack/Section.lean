import Verif.Qpack.Lemmas

/-! Whole field sections: decoding, and what the encoder writes. -/

namespace Verif.Qpack
open Verif Verif.Huffman

/-! ### Decoding -/

theorem readFields_sound : ∀ (k limit : Nat) (bs : Bytes) (hs : List Header),
    readFields k limit bs = .ok hs → IsLines IntMod decodeTable bs hs ∧ size hs ≤ limit := by
  intro k
  induction k with
  | zero =>
    intro limit bs hs h
    cases bs with
    | nil => simp only [readFields, Except.ok.injEq] at h; subst h; exact ⟨.nil, by simp [size]⟩
    | cons b t => simp [readFields] at h
  | succ k ih =>
    intro limit bs hs h
    cases bs with
    | nil => simp only [readFields, Except.ok.injEq] at h; subst h; exact ⟨.nil, by simp [size]⟩
    | cons b t =>
      simp only [readFields] at h
      split at h
      · simp at h
      · rename_i h' l t' hf
        split at h
        · simp at h
        · rename_i hs' hr
          simp only [Except.ok.injEq] at h
          subst h
          obtain ⟨a, e, _, hl, hsz⟩ := readField_sound hf
          obtain ⟨hl', hsz'⟩ := ih _ _ _ hr
          rw [e]
          refine ⟨.cons hl hl', ?_⟩
          unfold size at hsz' ⊢
          unfold fieldSize at hsz
          simp only [List.map_cons, List.sum_cons]
          omega

theorem IsLine.ne_nil {bs : Bytes} {h : Header} (hl : IsLine IntShort decodeTable bs h) :
    bs ≠ [] := by
  cases hl with
  | indexed hi h1 h2 hh => obtain ⟨b, t, rfl, _⟩ := h1; simp
  | nameRef hi h1 h2 h3 hh hv => obtain ⟨b, t, rfl, _⟩ := h1; simp
  | literal h1 h2 h3 hn hv => obtain ⟨b, t, rfl, _⟩ := h1; simp

theorem size_cons (h : Header) (hs : List Header) : size (h :: hs) = fieldSize h + size hs := by
  unfold size fieldSize; simp

theorem readFields_complete {bs : Bytes} {hs : List Header}
    (hl : IsLines IntShort decodeTable bs hs) : ∀ (k limit : Nat), bs.length ≤ k →
    readFields k limit bs =
      if size hs ≤ limit then .ok hs else .error .headerListTooLarge := by
  induction hl with
  | nil => intro k limit _; cases k <;> simp [readFields, size]
  | @cons a b h hs ha hb ih =>
    intro k limit hk
    obtain ⟨x, t, rfl⟩ : ∃ x t, a = x :: t := by
      cases a with
      | nil => exact absurd rfl ha.ne_nil
      | cons x t => exact ⟨x, t, rfl⟩
    rw [size_cons]
    cases k with
    | zero => simp at hk
    | succ k =>
      have hf := readField_complete ha limit b
      simp only [List.cons_append, readFields] at hf ⊢
      rw [hf]
      by_cases c : fieldSize h ≤ limit
      · rw [if_pos c]
        dsimp only
        rw [ih k _ (by simp at hk; omega)]
        by_cases c' : size hs ≤ limit - fieldSize h
        · rw [if_pos c', if_pos (by omega)]
        · rw [if_neg c', if_neg (by omega)]
      · rw [if_neg c, if_neg (by omega)]

theorem readField_ne_panic (limit : Nat) (bs : Bytes) : readField limit bs ≠ .error .panic := by
  have key : ∀ {α : Type} {x : Except Err α} {e : Err}, x ≠ .error .panic → x = .error e →
      (∀ {β : Type}, (Except.error e : Except Err β) ≠ .error .panic) := by
    intro α x e hx he β hc
    simp only [Except.error.injEq] at hc
    subst hc
    exact hx he
  unfold readField
  split
  · simp
  · split
    · rename_i e he; exact key (spend_ne_panic _ _) he
    · split
      · unfold readIndexed
        split
        · rename_i e he; exact key (decodeInt_ne_panic _ _) he
        · split
          · split
            · rename_i e he; exact key (staticEntry_ne_panic _) he
            · split
              · rename_i e he; exact key (spend_ne_panic _ _) he
              · simp
          · simp
      · unfold readLiteral
        split
        · rename_i e he; exact key (decodeInt_ne_panic _ _) he
        · split
          · rename_i e he; exact key (takeStr_ne_panic _ _ _ _) he
          · split
            · rename_i e he; exact key (spend_ne_panic _ _) he
            · exact readValue_ne_panic _ _ _
      · unfold readNameRef
        split
        · split
          · rename_i e he; exact key (decodeInt_ne_panic _ _) he
          · split
            · rename_i e he; exact key (staticEntry_ne_panic _) he
            · split
              · rename_i e he; exact key (spend_ne_panic _ _) he
              · exact readValue_ne_panic _ _ _
        · simp
      · split
        · rename_i e he; exact key (decodeInt_ne_panic _ _) he
        · simp
      · simp

theorem readFields_ne_panic : ∀ (k limit : Nat) (bs : Bytes), bs.length ≤ k →
    readFields k limit bs ≠ .error .panic := by
  intro k
  induction k with
  | zero =>
    intro limit bs hk
    cases bs with
    | nil => simp [readFields]
    | cons b t => simp at hk
  | succ k ih =>
    intro limit bs hk
    cases bs with
    | nil => simp [readFields]
    | cons b t =>
      simp only [readFields]
      split
      · rename_i e he
        intro hx
        simp only [Except.error.injEq] at hx
        subst hx
        exact readField_ne_panic _ _ he
      · rename_i h l t' hf
        obtain ⟨a, e, hne, _, _⟩ := readField_sound hf
        have hlen : t'.length ≤ k := by
          have := congrArg List.length e
          cases a with
          | nil => exact absurd rfl hne
          | cons x y => simp only [List.length_cons, List.length_append] at this hk; omega
        split
        · rename_i e' he'
          intro hx
          simp only [Except.error.injEq] at hx
          subst hx
          exact ih _ _ hlen he'
        · simp

theorem decode_sound {bs : Bytes} {m : Nat} {hs : List Header} (h : decode bs m = .ok hs) :
    IsBlock IntMod decodeTable bs hs ∧ size hs ≤ m := by
  unfold decode at h
  split at h
  · simp at h
  · rename_i ric t h1
    split at h
    · simp at h
    · rename_i base t' h2
      obtain ⟨a, rfl, ha, _⟩ := decodeInt_sound (by omega) h1
      obtain ⟨b, rfl, hb, _⟩ := decodeInt_sound (by omega) h2
      obtain ⟨hl, hs'⟩ := readFields_sound _ _ _ _ h
      exact ⟨⟨a, b, t', ric, base, by simp, ha, hb, hl⟩, hs'⟩

theorem decode_complete {bs : Bytes} {hs : List Header} (h : IsBlock IntShort decodeTable bs hs)
    (m : Nat) : decode bs m = if size hs ≤ m then .ok hs else .error .headerListTooLarge := by
  obtain ⟨a, b, c, ric, base, rfl, ha, hb, hl⟩ := h
  unfold decode
  rw [List.append_assoc, decodeInt_complete ha]
  dsimp only
  rw [decodeInt_complete hb]
  dsimp only
  exact readFields_complete hl _ _ (Nat.le_refl _)

theorem decode_ne_panic (bs : Bytes) (m : Nat) : decode bs m ≠ .error .panic := by
  unfold decode
  split
  · rename_i e he
    intro hx
    simp only [Except.error.injEq] at hx
    subst hx
    exact decodeInt_ne_panic _ _ he
  · split
    · rename_i e he
      intro hx
      simp only [Except.error.injEq] at hx
      subst hx
      exact decodeInt_ne_panic _ _ he
    · exact readFields_ne_panic _ _ _ (Nat.le_refl _)

/-! ### Encoding -/

theorem ofNat_small {v : Nat} (h : v < 256) : (UInt8.ofNat v).toNat = v := by
  simp [UInt8.toNat_ofNat']; omega

theorem writes_byte (v : Nat) : Io.Writes (Io.putU 1 v : Q Unit) [UInt8.ofNat v] () := by
  have := Io.writes_u (ε := Err) 1 v
  simpa [beBytes] using this

theorem putCont_writes : ∀ (k v : Nat), v < 2 ^ (7 * (k + 1)) →
    ∃ t, Io.Writes (putCont (k + 1) v) t () ∧ Groups t v ∧ t.length ≤ k + 1 := by
  intro k
  induction k with
  | zero =>
    intro v hv
    have hv : v < 128 := by simpa using hv
    unfold putCont
    rw [if_neg (by omega)]
    refine ⟨_, writes_byte v, ?_, by simp⟩
    have := Groups.last (UInt8.ofNat v) (by rw [ofNat_small (by omega)]; exact hv)
    rwa [ofNat_small (by omega)] at this
  | succ k ih =>
    intro v hv
    unfold putCont
    by_cases c : v ≥ 128
    · rw [if_pos c]
      have e7 : v >>> 7 = v / 128 := by rw [Nat.shiftRight_eq_div_pow]
      obtain ⟨t, ht, hg, hl⟩ := ih (v >>> 7) (by
        rw [e7]
        have : 2 ^ (7 * (k + 1 + 1)) = 2 ^ (7 * (k + 1)) * 128 := by
          rw [Nat.mul_add 7 (k + 1), Nat.pow_add]
        omega)
      refine ⟨_, (writes_byte _).bind ht, ?_, by simp; omega⟩
      have := Groups.more (UInt8.ofNat (v % 128 + 128)) (by rw [ofNat_small (by omega)]; omega) hg
      rw [ofNat_small (by omega), e7] at this
      have e : v % 128 + 128 - 128 + 128 * (v / 128) = v := by omega
      rw [e] at this
      exact this
    · rw [if_neg c]
      refine ⟨_, writes_byte v, ?_, by simp⟩
      have := Groups.last (UInt8.ofNat v) (by rw [ofNat_small (by omega)]; omega)
      rwa [ofNat_small (by omega)] at this

theorem or_first {first x p : Nat} (hf : first % 2 ^ p = 0) (hx : x < 2 ^ p) :
    first ||| x = first + x := by
  obtain ⟨k, hk⟩ := Nat.dvd_of_mod_eq_zero hf
  rw [hk, Nat.mul_comm, or_low hx]

theorem encodeInt_writes {v first pre : Nat} (hv : v < 2 ^ 64) (hp : pre ≤ 8)
    (hf : first % 2 ^ pre = 0) (hf2 : first < 256) :
    ∃ b t, Io.Writes (encodeInt v first pre) (b :: t) () ∧ IntShort pre (b :: t) v ∧
      b.toNat / 2 ^ pre = first / 2 ^ pre := by
  have hpos := Nat.two_pow_pos pre
  have hdvd : 2 ^ pre ∣ 256 := Nat.pow_dvd_pow 2 hp
  have hle : ∀ x, x < 2 ^ pre → first + x < 256 := by
    intro x hx
    obtain ⟨k, hk⟩ := Nat.dvd_of_mod_eq_zero hf
    obtain ⟨m, hm⟩ := hdvd
    rw [hm, hk] at hf2
    have : k < m := Nat.lt_of_mul_lt_mul_left hf2
    have : 2 ^ pre * (k + 1) ≤ 2 ^ pre * m := Nat.mul_le_mul_left _ this
    rw [Nat.mul_add, Nat.mul_one, ← hk, ← hm] at this
    omega
  have hdiv : ∀ x, x < 2 ^ pre → (first + x) / 2 ^ pre = first / 2 ^ pre := by
    intro x hx
    obtain ⟨k, hk⟩ := Nat.dvd_of_mod_eq_zero hf
    rw [hk, Nat.mul_add_div hpos, Nat.div_eq_of_lt hx, Nat.mul_div_cancel_left _ hpos,
      Nat.add_zero]
  have hmod : ∀ x, x < 2 ^ pre → (first + x) % 2 ^ pre = x := by
    intro x hx
    obtain ⟨k, hk⟩ := Nat.dvd_of_mod_eq_zero hf
    rw [hk, Nat.mul_add_mod, Nat.mod_eq_of_lt hx]
  unfold encodeInt
  dsimp only
  by_cases c : v < 2 ^ pre - 1
  · rw [if_pos c, or_first hf (by omega)]
    have h1 := hle v (by omega)
    refine ⟨_, [], writes_byte _, ?_, by rw [ofNat_small h1]; exact hdiv v (by omega)⟩
    have := IsInt.small (n := pre) (UInt8.ofNat (first + v)) (by
      rw [ofNat_small h1, hmod v (by omega)]; exact c)
    rw [ofNat_small h1, hmod v (by omega)] at this
    exact ⟨this, hv, by simp⟩
  · rw [if_neg c, or_first hf (by omega)]
    have h1 := hle (2 ^ pre - 1) (by omega)
    obtain ⟨t, ht, hg, hl⟩ := putCont_writes 9 (v - (2 ^ pre - 1)) (by
      have : (2 : Nat) ^ 64 ≤ 2 ^ (7 * (9 + 1)) := Nat.pow_le_pow_right (by omega) (by omega)
      omega)
    refine ⟨_, t, (writes_byte _).bind ht, ?_, by
      rw [ofNat_small h1]; exact hdiv _ (by omega)⟩
    have := IsInt.big (n := pre) (UInt8.ofNat (first + (2 ^ pre - 1))) (by
      rw [ofNat_small h1, hmod _ (by omega)]) hg
    rw [show 2 ^ pre - 1 + (v - (2 ^ pre - 1)) = v by omega] at this
    exact ⟨this, hv, by simp; omega⟩

theorem bytesBits_inj : ∀ {a b : Bytes}, bytesBits a = bytesBits b → a = b := by
  intro a
  induction a with
  | nil =>
    intro b h
    cases b with
    | nil => rfl
    | cons x t =>
      have := congrArg List.length h
      simp only [bytesBits_length, List.length_cons, List.length_nil] at this
      omega
  | cons x t ih =>
    intro b h
    cases b with
    | nil =>
      have := congrArg List.length h
      simp only [bytesBits_length, List.length_cons, List.length_nil] at this
      omega
    | cons y u =>
      rw [bytesBits_cons, bytesBits_cons] at h
      obtain ⟨h1, h2⟩ := List.append_inj h (by simp)
      have := bits_inj x.toNat_lt y.toNat_lt h1
      rw [ih h2, UInt8.toNat_inj.1 this]

/-- The Huffman encoder writes fixed bytes. -/
theorem putHuffman_writes (lc : Bool) (v : Bytes) :
    ∃ bs, Io.Writes (Io.lift (putHuffman lc · v) : Q Unit) bs () ∧
      Valid (bytesBits bs) (v.map (fold lc)) ∧
      bs.length = ((codes (v.map (fold lc))).length + 7) / 8 := by
  generalize hn : ((codes (v.map (fold lc))).length + 7) / 8 = n
  have h0 : (Cur.withSlice (List.replicate n 0)).WF := by simp [Cur.WF, Cur.withSlice]
  rcases putHuffman_spec lc _ h0 v with ⟨c', _, h⟩ | ⟨bs, c', h1, _, h3, h4⟩
  · rw [hn] at h; simp [Cur.withSlice] at h
  · rw [hn] at h4
    refine ⟨bs, ⟨?_, ?_⟩, ⟨_, ?_, h3⟩, h4⟩
    · intro c hc hl
      rcases putHuffman_spec lc c hc v with ⟨c', _, h⟩ | ⟨bs', c'', g1, g2, g3, g4⟩
      · rw [hn] at h; unfold Cur.cap at hl; unfold Cur.WF at hc; omega
      · have : bs' = bs := bytesBits_inj (by rw [h3, g3, h4, g4, hn])
        subst this
        exact ⟨c'', by unfold Io.lift; simp only [g1], g2⟩
    · intro c hc hl
      rcases putHuffman_spec lc c hc v with ⟨c', h, _⟩ | ⟨bs', c'', g1, g2, g3, g4⟩
      · exact ⟨c', by unfold Io.lift; simp only [h]⟩
      · have := g2.room
        unfold Cur.cap at hl
        omega
    · omega

theorem flag_of_div {n : Nat} {b : UInt8} {t : Bytes} {x m : Nat} (h : b.toNat / 2 ^ m = x)
    (hm : m ≤ n) : Flag n (b :: t) (decide (x / 2 ^ (n - m) % 2 = 1)) := by
  refine ⟨b, t, rfl, ?_⟩
  subst h
  rw [Nat.div_div_eq_div_mul, ← Nat.pow_add, Nat.add_sub_cancel' hm]

/-- What `encode_str` writes is a string literal; the bits of the first byte above the
Huffman flag are those of `first`. -/
theorem encodeStr_writes {lc : Bool} {v : Bytes} {first pre : Nat} (hv : v.length < 2 ^ 64)
    (hp : pre < 8) (hf : first % 2 ^ (pre + 1) = 0) (hf2 : first < 256) :
    ∃ b t, Io.Writes (encodeStr lc v first pre) (b :: t) () ∧
      IsStr IntShort pre (b :: t) (v.map (fold lc)) ∧
      b.toNat / 2 ^ (pre + 1) = first / 2 ^ (pre + 1) := by
  have hpow : (2 : Nat) ^ (pre + 1) = 2 * 2 ^ pre := by rw [Nat.pow_succ, Nat.mul_comm]
  have hpos := Nat.two_pow_pos pre
  have hf0 : first % 2 ^ pre = 0 := by
    obtain ⟨k, hk⟩ := Nat.dvd_of_mod_eq_zero hf
    rw [hk, hpow, Nat.mul_comm 2, Nat.mul_assoc, Nat.mul_mod_right]
  have hdd : ∀ x, x / 2 ^ (pre + 1) = x / 2 ^ pre / 2 := by
    intro x; rw [Nat.pow_succ, Nat.div_div_eq_div_mul]
  unfold encodeStr
  rw [C03.encodingLen_eq]
  by_cases c : ((codes (v.map (fold lc))).length + 7) / 8 > v.length
  · rw [if_pos c]
    dsimp only
    obtain ⟨b, t, h1, h2, h3⟩ := encodeInt_writes hv (by omega) hf0 hf2
    refine ⟨b, t ++ v.map (fold lc), h1.bind (Io.writes_bytes _), ⟨b :: t, v.map (fold lc), _,
      rfl, by simpa using h2, flag_of_div h3 (Nat.le_refl _), ?_⟩, by
      rw [hdd, hdd, h3]⟩
    have : first / 2 ^ pre % 2 = 0 := by
      obtain ⟨k, hk⟩ := Nat.dvd_of_mod_eq_zero hf
      rw [hk, hpow, Nat.mul_comm 2, Nat.mul_assoc, Nat.mul_div_cancel_left _ hpos,
        Nat.mul_mod_right]
    rw [Nat.sub_self, Nat.pow_zero, Nat.div_one, this]
    simp
  · rw [if_neg c]
    dsimp only
    obtain ⟨raw, hw, hval, hlen⟩ := putHuffman_writes lc v
    have e1 : first ||| (1 <<< pre) = first + 2 ^ pre := by
      rw [Nat.shiftLeft_eq, Nat.one_mul, or_first hf (by omega)]
    rw [e1]
    have hlt : first + 2 ^ pre < 256 := by
      obtain ⟨k, hk⟩ := Nat.dvd_of_mod_eq_zero hf
      obtain ⟨m, hm⟩ : 2 ^ (pre + 1) ∣ 256 := Nat.pow_dvd_pow 2 (show pre + 1 ≤ 8 by omega)
      rw [hm, hk] at hf2
      have hk' : k < m := Nat.lt_of_mul_lt_mul_left hf2
      have : 2 ^ (pre + 1) * (k + 1) ≤ 2 ^ (pre + 1) * m := Nat.mul_le_mul_left _ hk'
      rw [Nat.mul_add, Nat.mul_one, ← hk, ← hm] at this
      omega
    obtain ⟨b, t, h1, h2, h3⟩ := encodeInt_writes
      (v := ((codes (v.map (fold lc))).length + 7) / 8) (first := first + 2 ^ pre) (pre := pre)
      (by omega) (by omega) (by rw [Nat.add_mod_right]; exact hf0) hlt
    rw [Nat.add_div_right _ hpos] at h3
    have h4 : first / 2 ^ pre % 2 = 0 := by
      obtain ⟨k, hk⟩ := Nat.dvd_of_mod_eq_zero hf
      rw [hk, hpow, Nat.mul_comm 2, Nat.mul_assoc, Nat.mul_div_cancel_left _ hpos,
        Nat.mul_mod_right]
    refine ⟨b, t ++ raw, h1.bind hw, ⟨b :: t, raw, _, rfl, by rw [hlen]; exact h2,
      flag_of_div h3 (Nat.le_refl _), ?_⟩, by rw [hdd, hdd, h3]; omega⟩
    rw [Nat.sub_self, Nat.pow_zero, Nat.div_one,
      decide_eq_true (show (first / 2 ^ pre).succ % 2 = 1 by omega)]
    simpa using hval

/-! ### The static table -/

/-- An entry of the encoder's table, with the length of its bucket, agrees with the
decoder's. -/
def nameOk (n : Nat) (e : Bytes × List (Bytes × Nat)) : Bool :=
  e.1.length == n && !e.2.isEmpty &&
    e.2.all (fun v => match decodeTable[v.2]? with
      | some d => d.1 == e.1 && d.2 == v.1
      | none => false)

theorem table_ok : ∀ n < 33, (encodeTable.getD n []).all (nameOk n) = true := by
  decide +kernel

theorem table_len : encodeTable.length = 33 ∧ decodeTable.length = 99 := by decide +kernel

theorem bucket_ok {n : Nat} {t : List (Bytes × List (Bytes × Nat))}
    (h : encodeTable[n]? = some t) {e : Bytes × List (Bytes × Nat)} (he : e ∈ t) :
    nameOk n e = true := by
  have hn : n < 33 := by
    have := (List.getElem?_eq_some_iff.1 h).1
    rw [table_len.1] at this
    exact this
  have := table_ok n hn
  rw [List.getD_eq_getElem?_getD, h, Option.getD_some, List.all_eq_true] at this
  exact this e he

theorem nameOk_ok {n : Nat} {e : Bytes × List (Bytes × Nat)} (h : nameOk n e = true) :
    e.1.length = n ∧ e.2 ≠ [] ∧ ∀ v ∈ e.2, decodeTable[v.2]? = some (e.1, v.1) := by
  unfold nameOk at h
  simp only [Bool.and_eq_true, beq_iff_eq, Bool.not_eq_true', List.isEmpty_eq_false_iff,
    List.all_eq_true] at h
  refine ⟨h.1.1, h.1.2, ?_⟩
  intro v hv
  have := h.2 v hv
  split at this
  · rename_i d hd
    simp only [Bool.and_eq_true, beq_iff_eq] at this
    rw [hd]
    obtain ⟨d1, d2⟩ := d
    simp only at this
    rw [this.1, this.2]
  · simp at this

theorem cmpLowercase_eq : ∀ {a b : Bytes}, a.length = b.length → cmpLowercase a b = true →
    a = b.map lower := by
  intro a
  induction a with
  | nil => intro b h _; cases b with
    | nil => rfl
    | cons x t => simp at h
  | cons x t ih =>
    intro b h hc
    cases b with
    | nil => simp at h
    | cons y u =>
      unfold cmpLowercase at hc ih
      simp only [List.zip_cons_cons, List.all_cons, Bool.and_eq_true, beq_iff_eq] at hc
      simp only [List.length_cons, Nat.add_right_cancel_iff] at h
      rw [List.map_cons, ← hc.1, ← ih h hc.2]

theorem lookupValue_ok {value : Bytes} : ∀ {l : List (Bytes × Nat)} {i : Nat} {f : Bool},
    lookupValue value l = some (i, f) → ∃ v ∈ l, v.2 = i ∧ (f = true → v.1 = value) := by
  intro l
  induction l with
  | nil => intro i f h; simp [lookupValue] at h
  | cons x l ih =>
    intro i f h
    obtain ⟨v, enc⟩ := x
    simp only [lookupValue] at h
    split at h
    · simp only [Option.some.injEq, Prod.mk.injEq] at h
      exact ⟨(v, enc), by simp, h.1, fun hf => by rw [hf] at h; simp at h⟩
    · split at h
      · rename_i hv
        simp only [Option.some.injEq, Prod.mk.injEq] at h
        exact ⟨(v, enc), by simp, h.1, fun _ => (beq_iff_eq.1 hv).symm⟩
      · obtain ⟨w, hw, h1, h2⟩ := ih h
        exact ⟨w, List.mem_cons_of_mem _ hw, h1, h2⟩

theorem lookupName_ok {name value : Bytes} : ∀ {l : List (Bytes × List (Bytes × Nat))} {i : Nat}
    {f : Bool}, (∀ e ∈ l, nameOk name.length e = true) → lookupName name value l = some (i, f) →
    ∃ v, decodeTable[i]? = some (name.map lower, v) ∧ (f = true → v = value) := by
  intro l
  induction l with
  | nil => intro i f _ h; simp [lookupName] at h
  | cons x l ih =>
    intro i f hok h
    obtain ⟨n, vs⟩ := x
    simp only [lookupName] at h
    split at h
    · rename_i hc
      obtain ⟨h1, h2, h3⟩ := nameOk_ok (hok _ (List.mem_cons_self ..))
      have hn := cmpLowercase_eq h1 hc
      simp only at h1 h2 h3
      split at h
      · rename_i r hr
        simp only [Option.some.injEq] at h
        subst h
        obtain ⟨v, hv, e, hf⟩ := lookupValue_ok hr
        refine ⟨v.1, ?_, hf⟩
        rw [← e, ← hn]
        exact h3 v hv
      · cases vs with
        | nil => exact absurd rfl h2
        | cons v vs =>
          simp only [List.head?_cons, Option.map_some, Option.some.injEq, Prod.mk.injEq] at h
          refine ⟨v.1, ?_, fun hf => by rw [hf] at h; simp at h⟩
          rw [← h.1, ← hn]
          exact h3 v (by simp)
    · exact ih (fun e he => hok e (List.mem_cons_of_mem _ he)) h

theorem lookupStatic_ok {h : Header} {i : Nat} {f : Bool} (hl : lookupStatic h = some (i, f)) :
    ∃ v, decodeTable[i]? = some (h.1.map lower, v) ∧ (f = true → v = h.2) := by
  unfold lookupStatic at hl
  split at hl
  · rename_i t ht
    exact lookupName_ok (fun e he => bucket_ok ht he) hl
  · simp at hl

/-! ### Fields -/

/-- A header with its name in lower case. -/
def lowered (h : Header) : Header := (h.1.map lower, h.2)

theorem map_fold_false (v : Bytes) : v.map (fold false) = v := C03.not_lowered v

theorem map_fold_true (v : Bytes) : v.map (fold true) = v.map lower := rfl

theorem encodeField_writes (h : Header) (h1 : h.1.length < 2 ^ 64) (h2 : h.2.length < 2 ^ 64) :
    ∃ bs, Io.Writes (encodeField h) bs () ∧ IsLine IntShort decodeTable bs (lowered h) := by
  have hval := encodeStr_writes (lc := false) (v := h.2) (first := 0) (pre := 7) h2 (by omega)
    rfl (by omega)
  rw [map_fold_false] at hval
  obtain ⟨vb, vt, hvw, hvs, _⟩ := hval
  have hidx : ∀ {i : Nat} {e : Header}, decodeTable[i]? = some e → i < 99 := by
    intro i e he
    have := (List.getElem?_eq_some_iff.1 he).1
    rw [table_len.2] at this
    exact this
  unfold encodeField
  split
  · rename_i idx hl
    obtain ⟨v, hd, hv⟩ := lookupStatic_ok hl
    have hlt := hidx hd
    obtain ⟨b, t, hw, hi, hdiv⟩ := encodeInt_writes (v := idx) (first := indexed ||| 0x40)
      (pre := 6) (by omega) (by omega) (by decide) (by decide)
    have e : (indexed ||| 0x40) / 2 ^ 6 = 3 := by decide
    rw [e] at hdiv
    refine ⟨_, hw, .indexed hi (by simpa using flag_of_div (n := 7) hdiv (by omega))
      (by simpa using flag_of_div (n := 6) hdiv (by omega)) ?_⟩
    rw [hd, hv rfl]; rfl
  · rename_i idx hl
    obtain ⟨v, hd, -⟩ := lookupStatic_ok hl
    have hlt := hidx hd
    obtain ⟨b, t, hw, hi, hdiv⟩ := encodeInt_writes (v := idx)
      (first := literalWithNameRef ||| 0x10) (pre := 4) (by omega) (by omega) (by decide)
      (by decide)
    have e : (literalWithNameRef ||| 0x10) / 2 ^ 4 = 5 := by decide
    rw [e] at hdiv
    exact ⟨_, hw.bind hvw, .nameRef (h := (h.1.map lower, v)) hi
      (by simpa using flag_of_div (n := 7) hdiv (by omega))
      (by simpa using flag_of_div (n := 6) hdiv (by omega))
      (by simpa using flag_of_div (n := 4) hdiv (by omega)) hd hvs⟩
  · obtain ⟨b, t, hw, hs, hdiv⟩ := encodeStr_writes (lc := true) (v := h.1) (first := literal)
      (pre := 3) h1 (by omega) (by decide) (by decide)
    have e : literal / 2 ^ (3 + 1) = 2 := by decide
    rw [e] at hdiv
    exact ⟨_, hw.bind hvw, .literal (by simpa using flag_of_div (n := 7) hdiv (by omega))
      (by simpa using flag_of_div (n := 6) hdiv (by omega))
      (by simpa using flag_of_div (n := 5) hdiv (by omega)) hs hvs⟩

theorem encodeFields_writes : ∀ (hs : List Header),
    (∀ h ∈ hs, h.1.length < 2 ^ 64 ∧ h.2.length < 2 ^ 64) →
    ∃ bs, Io.Writes (encodeFields hs) bs () ∧
      IsLines IntShort decodeTable bs (hs.map lowered) := by
  intro hs
  induction hs with
  | nil => intro _; exact ⟨[], Io.Writes.pure (), .nil⟩
  | cons h hs ih =>
    intro hb
    obtain ⟨a, ha, la⟩ := encodeField_writes h (hb h (by simp)).1 (hb h (by simp)).2
    obtain ⟨b, hb', lb⟩ := ih (fun x hx => hb x (List.mem_cons_of_mem _ hx))
    exact ⟨a ++ b, ha.bind hb', .cons la lb⟩

/-- What the encoder writes is a field section of the format, for the headers with their
names in lower case. -/
theorem encode_writes (hs : List Header)
    (hb : ∀ h ∈ hs, h.1.length < 2 ^ 64 ∧ h.2.length < 2 ^ 64) :
    ∃ bs, Io.Writes (encode hs) bs () ∧ IsBlock IntShort decodeTable bs (hs.map lowered) := by
  obtain ⟨a, at', hwa, hia, _⟩ := encodeInt_writes (v := 0) (first := 0) (pre := 8) (by omega)
    (by omega) (by decide) (by decide)
  obtain ⟨b, bt, hwb, hib, _⟩ := encodeInt_writes (v := 0) (first := 0) (pre := 7) (by omega)
    (by omega) (by decide) (by decide)
  obtain ⟨c, hwc, hlc⟩ := encodeFields_writes hs hb
  exact ⟨_, hwa.bind (hwb.bind hwc), ⟨a :: at', b :: bt, c, 0, 0, by simp, hia, hib, hlc⟩⟩

end Verif.Qpack
