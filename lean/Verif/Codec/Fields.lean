import Verif.Codec.Lemmas

/-!
Wire formats as lists of fields, independent of the code: which byte strings spell
a list of fields, which lists of fields a reader accepts (`Gram`) and which a
writer produces (`Emits`).
-/

namespace Verif

/-- A variable-length integer (RFC 9000, section 16): the two highest bits of the
first byte give the length, the remaining bits the value. -/
def IsVarint (v : Nat) (bs : Bytes) : Prop :=
  (bs.length = 1 ∧ v < 2 ^ 6 ∧ beVal bs = v) ∨
  (bs.length = 2 ∧ v < 2 ^ 14 ∧ beVal bs = 1 * 2 ^ 14 + v) ∨
  (bs.length = 4 ∧ v < 2 ^ 30 ∧ beVal bs = 2 * 2 ^ 30 + v) ∨
  (bs.length = 8 ∧ v < 2 ^ 62 ∧ beVal bs = 3 * 2 ^ 62 + v)

/-- One field: a variable-length integer, an integer of `n` bytes, or bytes. -/
inductive Field where
  | int (v : Nat)
  | fix (n v : Nat)
  | raw (bs : Bytes)
  deriving DecidableEq, Repr

/-- `bs` spells the field. -/
def Field.Spells : Field → Bytes → Prop
  | .int v, bs => IsVarint v bs
  | .fix n v, bs => bs.length = n ∧ beVal bs = v
  | .raw d, bs => bs = d

/-- `bs` spells the fields in order. -/
def Spells : List Field → Bytes → Prop
  | [], bs => bs = []
  | f :: fs, bs => ∃ b1 b2, bs = b1 ++ b2 ∧ f.Spells b1 ∧ Spells fs b2

theorem spells_append {f1 f2 : List Field} {bs : Bytes} :
    Spells (f1 ++ f2) bs ↔ ∃ b1 b2, bs = b1 ++ b2 ∧ Spells f1 b1 ∧ Spells f2 b2 := by
  induction f1 generalizing bs with
  | nil =>
    simp only [List.nil_append, Spells]
    constructor
    · intro h; exact ⟨[], bs, rfl, rfl, h⟩
    · rintro ⟨_, b, rfl, rfl, h⟩; exact h
  | cons f fs ih =>
    simp only [List.cons_append, Spells, ih]
    constructor
    · rintro ⟨a, b, rfl, h1, c, d, rfl, h2, h3⟩
      exact ⟨a ++ c, d, by simp, ⟨a, c, rfl, h1, h2⟩, h3⟩
    · rintro ⟨_, d, rfl, ⟨a, c, rfl, h1, h2⟩, h3⟩
      exact ⟨a, c ++ d, by simp, h1, c, d, rfl, h2, h3⟩

theorem spells_one {f : Field} {bs : Bytes} : Spells [f] bs ↔ f.Spells bs := by
  simp [Spells]

theorem isVarint_lt {v : Nat} {bs : Bytes} (h : IsVarint v bs) : v < 2 ^ 62 := by
  rcases h with h | h | h | h <;> omega

theorem decVarint_iff {v : Nat} {bs tail : Bytes} :
    decVarint (bs ++ tail) = .ok (v, bs.length) ↔ IsVarint v bs := by
  have key : ∀ (b : UInt8) (t : Bytes) (k : Nat), beVal (b :: t) / 256 ^ t.length = b.toNat := by
    intro b t k
    rw [beVal_cons, Nat.mul_comm, Nat.mul_add_div (Nat.pow_pos (by decide)),
      Nat.div_eq_of_lt (beVal_lt t)]; rfl
  constructor
  · intro h
    cases bs with
    | nil =>
      exfalso
      unfold decVarint at h
      cases tail with
      | nil => simp at h
      | cons b t =>
        simp only [List.nil_append] at h
        split at h
        · cases h
        · have := Except.ok.inj h
          simp only [Prod.mk.injEq, List.length_nil] at this
          rcases varintParseLen_isLen b with h | h | h | h <;> omega
    | cons b t =>
      simp only [decVarint, List.cons_append] at h
      split at h
      · cases h
      · have h := Except.ok.inj h
        simp only [Prod.mk.injEq] at h
        obtain ⟨h1, h2⟩ := h
        rw [h2, ← List.cons_append, List.take_left] at h1
        have hk := key b t 0
        have hb := varintParseLen_eq b
        have hlt := beVal_lt (b :: t)
        rw [h2] at hb
        unfold IsVarint
        rcases varintParseLen_isLen b with h | h | h | h <;> rw [h] at h2 <;>
          rw [← h2] at hb h1 ⊢ <;> simp only [List.length_cons] at h2
        · have e : t.length = 0 := by omega
          rw [e] at hk; simp at hk h1
          left
          split at hb
          · refine ⟨rfl, by omega, by omega⟩
          · repeat' split at hb
            all_goals omega
        · have e : t.length = 1 := by omega
          rw [e] at hk; simp at hk h1
          right; left
          repeat' split at hb
          all_goals omega
        · have e : t.length = 3 := by omega
          rw [e] at hk; simp at hk h1
          right; right; left
          repeat' split at hb
          all_goals omega
        · have e : t.length = 7 := by omega
          rw [e] at hk; simp at hk h1
          have := u8_lt b
          right; right; right
          repeat' split at hb
          all_goals omega
  · intro h
    cases bs with
    | nil => unfold IsVarint at h; simp at h
    | cons b t =>
      have hk := key b t 0
      have hb := varintParseLen_eq b
      have hp : varintParseLen b = (b :: t).length ∧
          beVal (b :: t) % 2 ^ (8 * (b :: t).length - 2) = v := by
        unfold IsVarint at h
        rcases h with ⟨h1, h2, h3⟩ | ⟨h1, h2, h3⟩ | ⟨h1, h2, h3⟩ | ⟨h1, h2, h3⟩ <;>
          rw [h1] <;> simp only [List.length_cons] at h1 <;>
          rw [show t.length = _ from Nat.succ.inj h1, h3] at hk <;> rw [h3]
        · simp at hk; rw [if_pos (by omega)] at hb; omega
        · simp at hk; rw [if_neg (by omega), if_pos (by omega)] at hb; omega
        · simp at hk; rw [if_neg (by omega), if_neg (by omega), if_pos (by omega)] at hb; omega
        · simp at hk; rw [if_neg (by omega), if_neg (by omega), if_neg (by omega)] at hb; omega
      simp only [decVarint, List.cons_append, hp.1]
      rw [if_neg (by simp), ← List.cons_append, List.take_left, hp.2]

namespace Io
variable {ε α β : Type}

/-- Which fields a reader accepts. `L fs tail a`: from fields `fs` followed by
`tail` it makes `a`. -/
structure Gram (p : Io ε α) (L : List Field → Bytes → α → Prop) : Prop where
  sound : ∀ (c : Cur) (a : α) (c' : Cur), c.WF → p c = (.ok a, c') →
    ∃ fs bs, Spells fs bs ∧ c.rest = bs ++ c'.rest ∧ c' = { c with off := c.off + bs.length } ∧
      c'.WF ∧ L fs c'.rest a
  complete : ∀ (fs : List Field) (bs tail : Bytes) (a : α), L fs tail a → Spells fs bs →
    Reads p bs tail a

theorem Gram.bind {p : Io ε α} {f : α → Io ε β} {L : List Field → α → Prop}
    {M : α → List Field → Bytes → β → Prop} (h1 : Gram p (fun fs _ a => L fs a))
    (h2 : ∀ a, Gram (f a) (M a)) :
    Gram (p >>= f) (fun fs tail b => ∃ f1 f2 a, fs = f1 ++ f2 ∧ L f1 a ∧ M a f2 tail b) := by
  constructor
  · intro c b c2 hc h
    rw [bind_run] at h
    rcases hp : p c with ⟨r, c1⟩
    rw [hp] at h
    cases r with
    | error e => cases h
    | ok a =>
      obtain ⟨f1, b1, s1, r1, e1, w1, l1⟩ := h1.sound c a c1 hc hp
      obtain ⟨f2, b2, s2, r2, e2, w2, l2⟩ := (h2 a).sound c1 b c2 w1 h
      refine ⟨f1 ++ f2, b1 ++ b2, spells_append.mpr ⟨b1, b2, rfl, s1, s2⟩, ?_, ?_, w2,
        f1, f2, a, rfl, l1, l2⟩
      · rw [r1, r2, List.append_assoc]
      · rw [e2, e1]; simp [Nat.add_assoc]
  · rintro fs bs tail b ⟨f1, f2, a, rfl, l1, l2⟩ hs
    obtain ⟨b1, b2, rfl, s1, s2⟩ := spells_append.mp hs
    exact (h1.complete f1 b1 (b2 ++ tail) a l1 s1).bind ((h2 a).complete f2 b2 tail b l2 s2)

theorem Gram.pure (a : α) : Gram (Pure.pure a : Io ε α) (fun fs _ b => fs = [] ∧ b = a) := by
  constructor
  · intro c b c' hc h
    rw [pure_run] at h
    cases h
    exact ⟨[], [], rfl, by simp, by simp, hc, rfl, rfl⟩
  · rintro fs bs tail b ⟨rfl, rfl⟩ hs
    cases hs
    exact Reads.pure _ _

theorem Gram.fail (e : ε) : Gram (Io.fail e : Io ε α) (fun _ _ _ => False) := by
  constructor
  · intro c b c' hc h
    unfold Io.fail at h
    cases h
  · intro fs bs tail a h; exact h.elim

theorem Gram.ite {cond : Prop} [Decidable cond] {p q : Io ε α} {L M : List Field → Bytes → α → Prop}
    (h1 : Gram p L) (h2 : Gram q M) :
    Gram (if cond then p else q) (fun fs tail a => (cond ∧ L fs tail a) ∨ (¬ cond ∧ M fs tail a)) := by
  by_cases h : cond
  · simpa [h] using h1
  · simpa [h] using h2

theorem Gram.congr {p : Io ε α} {L M : List Field → Bytes → α → Prop}
    (h : Gram p L) (hl : ∀ fs tail a, L fs tail a ↔ M fs tail a) : Gram p M := by
  have : L = M := by funext fs tail a; exact propext (hl fs tail a)
  rw [← this]; exact h

section
variable [FromOctets ε]

theorem gram_varint : Gram (varint : Io ε Nat) (fun fs _ v => fs = [.int v]) := by
  constructor
  · intro c v c' hc h
    unfold varint lift at h
    rw [getVarint_eq c hc] at h
    rcases hd : decVarint c.rest with e | ⟨v', n⟩
    · rw [hd] at h; cases h
    · rw [hd] at h
      simp only [Prod.mk.injEq, Except.ok.injEq] at h
      obtain ⟨rfl, rfl⟩ := h
      have hn : n ≤ c.rest.length := by
        unfold decVarint at hd
        split at hd
        · cases hd
        · simp only at hd
          split at hd
          · cases hd
          · cases hd; simp at *; omega
      have e : (c.rest.take n).length = n := by simp; omega
      have hi : IsVarint v' (c.rest.take n) := by
        rw [← decVarint_iff (tail := c.rest.drop n), List.take_append_drop, hd, e]
      have hwf : ({ c with off := c.off + n } : Cur).WF := by
        unfold Cur.WF Cur.rest at *; simp at hn ⊢; omega
      refine ⟨[.int v'], c.rest.take n, spells_one.mpr hi, ?_, by rw [e], hwf, rfl⟩
      unfold Cur.rest
      rw [← List.drop_drop, List.take_append_drop]
  · rintro fs bs tail v rfl hs
    have hs : IsVarint v bs := spells_one.mp hs
    intro c hc hr
    unfold varint lift
    rw [getVarint_eq c hc, hr, decVarint_iff.mpr hs]

theorem gram_bytes (n : Nat) : Gram (bytes n : Io ε Bytes) (fun fs _ d => fs = [.raw d] ∧ d.length = n) := by
  constructor
  · intro c d c' hc h
    unfold bytes lift Cur.getBytes at h
    dsimp only at h
    by_cases hn : c.cap < n
    · rw [if_pos hn] at h; cases h
    · rw [if_neg hn] at h
      simp only [Prod.mk.injEq, Except.ok.injEq] at h
      obtain ⟨rfl, rfl⟩ := h
      unfold Cur.cap at hn
      unfold Cur.WF at hc
      have e : ((c.buf.drop c.off).take n).length = n := by simp; omega
      refine ⟨[.raw _], (c.buf.drop c.off).take n, spells_one.mpr rfl, ?_, by rw [e],
        by unfold Cur.WF; simp only; omega, rfl, e⟩
      unfold Cur.rest
      rw [← List.drop_drop, List.take_append_drop]
  · rintro fs bs tail d ⟨rfl, rfl⟩ hs
    have hs : bs = d := spells_one.mp hs
    subst hs
    exact reads_bytes bs tail

theorem gram_getU (n : Nat) :
    Gram (getU n : Io ε Nat) (fun fs _ v => fs = [.fix n v]) := by
  constructor
  · intro c v c' hc h
    unfold getU lift Cur.getU Cur.peekU at h
    dsimp only at h
    unfold Cur.WF at hc
    rw [if_neg (by omega)] at h
    by_cases hn : (c.buf.drop c.off).length < n
    · rw [if_pos hn] at h; cases h
    · rw [if_neg hn] at h
      simp only [Prod.mk.injEq, Except.ok.injEq] at h
      obtain ⟨rfl, rfl⟩ := h
      have e : ((c.buf.drop c.off).take n).length = n := by
        simp only [List.length_take]; omega
      rw [List.length_drop] at hn
      refine ⟨[.fix _ _], (c.buf.drop c.off).take n, spells_one.mpr ⟨e, rfl⟩, ?_, by rw [e],
        by unfold Cur.WF; simp only; omega, rfl⟩
      unfold Cur.rest
      rw [← List.drop_drop, List.take_append_drop]
  · rintro fs bs tail v rfl hs
    obtain ⟨h1, h2⟩ : bs.length = n ∧ beVal bs = v := spells_one.mp hs
    subst h2
    exact reads_getU n bs tail h1

theorem gram_varBytes : Gram (varBytes : Io ε Bytes)
    (fun fs _ d => fs = [.int d.length, .raw d]) := by
  refine (Gram.bind gram_varint (fun n => gram_bytes n)).congr ?_
  intro fs tail d
  constructor
  · rintro ⟨_, _, n, rfl, rfl, rfl, rfl⟩; rfl
  · rintro rfl; exact ⟨_, _, _, rfl, rfl, rfl, rfl⟩

theorem gram_u8Bytes : Gram (u8Bytes : Io ε Bytes)
    (fun fs _ d => fs = [.fix 1 d.length, .raw d]) := by
  refine (Gram.bind (gram_getU 1) (fun n => gram_bytes n)).congr ?_
  intro fs tail d
  constructor
  · rintro ⟨_, _, n, rfl, rfl, rfl, rfl⟩; rfl
  · rintro rfl; exact ⟨_, _, _, rfl, rfl, rfl, rfl⟩

/-- `get_bytes(b.cap())`: everything that is left. -/
theorem gram_capBytes : Gram ((cap : Io ε Nat) >>= fun n => (bytes n : Io ε Bytes))
    (fun fs tail d => fs = [.raw d] ∧ tail = []) := by
  constructor
  · intro c d c' hc h
    have e : ((cap : Io ε Nat) >>= fun n => (bytes n : Io ε Bytes)) c = bytes c.cap c := rfl
    rw [e] at h
    obtain ⟨fs, bs, h1, h2, h3, h4, h5, h6⟩ := (gram_bytes c.cap).sound c d c' hc h
    refine ⟨fs, bs, h1, h2, h3, h4, h5, ?_⟩
    subst h5
    have : bs = d := spells_one.mp h1
    subst this
    have hl := congrArg List.length h2
    have : c.rest.length = c.cap := by unfold Cur.rest Cur.cap; simp
    rw [List.length_append] at hl
    exact List.length_eq_zero_iff.mp (by omega)
  · rintro fs bs tail d ⟨rfl, rfl⟩ hs
    have hs : bs = d := spells_one.mp hs
    subst hs
    intro c hc hr
    have e : ((cap : Io ε Nat) >>= fun n => (bytes n : Io ε Bytes)) c = bytes c.cap c := rfl
    have : c.rest.length = c.cap := by unfold Cur.rest Cur.cap; simp
    have hcl : c.cap = bs.length := by rw [← this, hr]; simp
    rw [e, hcl]
    exact reads_bytes bs [] c hc hr

/-! ### Writers -/

/-- `p` writes a spelling of `fs` that is `n` bytes long, or fails for lack of room. -/
def Emits (p : Io ε Unit) (fs : List Field) (n : Nat) : Prop :=
  ∃ bs, Writes p bs () ∧ Spells fs bs ∧ bs.length = n

theorem Emits.bind {p : Io ε Unit} {q : Unit → Io ε Unit} {f1 f2 : List Field} {n1 n2 : Nat}
    (h1 : Emits p f1 n1) (h2 : Emits (q ()) f2 n2) : Emits (p >>= q) (f1 ++ f2) (n1 + n2) := by
  obtain ⟨b1, w1, s1, l1⟩ := h1
  obtain ⟨b2, w2, s2, l2⟩ := h2
  exact ⟨b1 ++ b2, w1.bind w2, spells_append.mpr ⟨b1, b2, rfl, s1, s2⟩, by simp [l1, l2]⟩

theorem Emits.pure : Emits (Pure.pure () : Io ε Unit) [] 0 := ⟨[], Writes.pure (), rfl, rfl⟩

/-- Computing before writing. -/
theorem Emits.bindPure {p : Io ε α} {q : α → Io ε Unit} {a : α} {fs : List Field} {n : Nat}
    (h1 : p = Pure.pure a) (h2 : Emits (q a) fs n) : Emits (p >>= q) fs n := by
  subst h1; exact h2

theorem isVarint_enc {v n : Nat} (hl : IsVarintLen n) (hv : v < 2 ^ (8 * n - 2)) :
    IsVarint v (encVarintLen v n) := by
  rw [← decVarint_iff (tail := []), decVarint_enc hl hv, encVarintLen_length hl]

theorem emits_varint {v n : Nat} (h : varintLen v = some n) :
    Emits (putVarint v : Io ε Unit) [.int v] n := by
  have hv : v < 2 ^ 62 := by
    unfold varintLen maxVarInt at h
    repeat' split at h
    all_goals first | omega | cases h
  refine ⟨enc v, writes_varint hv, spells_one.mpr ?_, ?_⟩
  · obtain ⟨n, h1, h2, h3⟩ := varintLen_spec hv
    unfold enc; rw [h1]; exact isVarint_enc h2 h3
  · have := enc_length hv; rw [h] at this; cases this; rfl

theorem emits_varintLen {v n : Nat} (hl : IsVarintLen n) (hv : v < 2 ^ (8 * n - 2)) :
    Emits (putVarintLen v n : Io ε Unit) [.int v] n :=
  ⟨_, writes_varintLen hl, spells_one.mpr (isVarint_enc hl hv), encVarintLen_length hl⟩

theorem emits_bytes (d : Bytes) : Emits (putBytes d : Io ε Unit) [.raw d] d.length :=
  ⟨d, writes_bytes d, spells_one.mpr rfl, rfl⟩

theorem emits_u {n v : Nat} (h : v < 256 ^ n) : Emits (putU n v : Io ε Unit) [.fix n v] n :=
  ⟨_, writes_u n v, spells_one.mpr ⟨by simp, by rw [beVal_beBytes, Nat.mod_eq_of_lt h]⟩, by simp⟩

end
end Io
end Verif
