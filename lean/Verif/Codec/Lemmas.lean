import Verif.Codec.Io
import Verif.Codec.Wr
import Verif.Octets.Lemmas

/-! Reasoning about readers and writers. -/

namespace Verif.Io
open Verif

variable {ε α β : Type}

theorem bind_run (p : Io ε α) (f : α → Io ε β) (c : Cur) :
    (p >>= f) c = match p c with
      | (.ok a, c') => f a c'
      | (.error e, c') => (.error e, c') := rfl

theorem pure_run (a : α) (c : Cur) : (pure a : Io ε α) c = (.ok a, c) := rfl

/-! ### Reading a known string -/

/-- In front of `bs ++ tail`, `p` returns `a` and moves past `bs`. -/
def Reads (p : Io ε α) (bs tail : Bytes) (a : α) : Prop :=
  ∀ c : Cur, c.WF → c.rest = bs ++ tail → p c = (.ok a, { c with off := c.off + bs.length })

theorem advance {c : Cur} {bs tail : Bytes} (h : c.WF) (hr : c.rest = bs ++ tail) :
    ({ c with off := c.off + bs.length } : Cur).WF ∧
    ({ c with off := c.off + bs.length } : Cur).rest = tail := by
  unfold Cur.WF Cur.rest at *
  have hl : (c.buf.drop c.off).length = bs.length + tail.length := by rw [hr]; simp
  rw [List.length_drop] at hl
  refine ⟨by simp only; omega, ?_⟩
  simp only
  rw [← List.drop_drop, hr, List.drop_left]

theorem Reads.bind {p : Io ε α} {f : α → Io ε β} {b1 b2 tail : Bytes} {a : α} {b : β}
    (h1 : Reads p b1 (b2 ++ tail) a) (h2 : Reads (f a) b2 tail b) :
    Reads (p >>= f) (b1 ++ b2) tail b := by
  intro c hc hr
  rw [List.append_assoc] at hr
  obtain ⟨w, r⟩ := advance hc hr
  rw [bind_run, h1 c hc hr]
  simp only
  rw [h2 _ w r]
  simp [Nat.add_assoc]

theorem Reads.pure (a : α) (tail : Bytes) : Reads (Pure.pure a : Io ε α) [] tail a := by
  intro c _ _
  simp [pure_run]

/-- A reader whose last step computes. -/
theorem Reads.bindPure {p : Io ε α} {f : α → Io ε β} {b1 tail : Bytes} {a : α} {b : β}
    (h1 : Reads p b1 tail a) (h2 : f a = Pure.pure b) : Reads (p >>= f) b1 tail b := by
  have := Reads.bind (b2 := []) (by simpa using h1) (f := f) (by rw [h2]; exact Reads.pure b tail)
  simpa using this

section
variable [FromOctets ε]

theorem reads_varintLen {v n : Nat} (hl : IsVarintLen n) (hv : v < 2 ^ (8 * n - 2)) (tail : Bytes) :
    Reads (varint : Io ε Nat) (encVarintLen v n) tail v := by
  intro c hc hr
  unfold varint lift
  rw [getVarint_eq c hc, hr, decVarint_enc hl hv]
  simp [encVarintLen_length hl]

theorem reads_bytes (bs tail : Bytes) : Reads (bytes bs.length : Io ε Bytes) bs tail bs := by
  intro c hc hr
  have hl : (c.buf.drop c.off).length = bs.length + tail.length := by
    unfold Cur.rest at hr; rw [hr]; simp
  rw [List.length_drop] at hl
  unfold bytes lift Cur.getBytes
  dsimp only
  rw [if_neg (by unfold Cur.cap; omega)]
  unfold Cur.rest at hr
  simp only [hr, List.take_left]

theorem reads_getU (n : Nat) (bs tail : Bytes) (hn : bs.length = n) :
    Reads (getU n : Io ε Nat) bs tail (beVal bs) := by
  intro c hc hr
  have hl : (c.buf.drop c.off).length = bs.length + tail.length := by
    unfold Cur.rest at hr; rw [hr]; simp
  unfold getU lift Cur.getU Cur.peekU
  dsimp only
  unfold Cur.WF at hc
  rw [if_neg (by omega), if_neg (by omega)]
  unfold Cur.rest at hr
  subst hn
  simp only [hr, List.take_left]

end

/-! ### Writing -/

/-- `p` returns `a` and writes `bs` if there is room for it, and otherwise fails
for lack of room. -/
structure Writes [FromOctets ε] (p : Io ε α) (bs : Bytes) (a : α) : Prop where
  ok : ∀ c : Cur, c.WF → bs.length ≤ c.cap → ∃ c', p c = (.ok a, c') ∧ Wr c bs c'
  short : ∀ c : Cur, c.WF → c.cap < bs.length →
    ∃ c', p c = (.error (FromOctets.fromO .tooShort), c')

theorem Wr.wf {c c' : Cur} {bs : Bytes} (h : Wr c bs c') : c'.WF := by
  obtain ⟨r, b, o⟩ := h
  unfold Cur.WF; rw [b, o, overwrite_len r]; exact r

theorem Wr.cap {c c' : Cur} {bs : Bytes} (h : Wr c bs c') : c'.cap = c.cap - bs.length := by
  obtain ⟨r, b, o⟩ := h
  unfold Cur.cap; rw [b, o, overwrite_len r]; omega

/-- What was written can be read back from where writing started. -/
theorem Wr.rest {c c' : Cur} {bs : Bytes} (h : Wr c bs c') :
    c'.buf.drop c.off = bs ++ c.buf.drop (c.off + bs.length) := by
  rw [h.buf, overwrite_rest _ _ _ (by have := h.room; omega)]

section
variable [FromOctets ε]

theorem Writes.bind {p : Io ε α} {f : α → Io ε β} {b1 b2 : Bytes} {a : α} {b : β}
    (h1 : Writes p b1 a) (h2 : Writes (f a) b2 b) : Writes (p >>= f) (b1 ++ b2) b := by
  constructor
  · intro c hc hl
    rw [List.length_append] at hl
    obtain ⟨c1, e1, w1⟩ := h1.ok c hc (by omega)
    obtain ⟨c2, e2, w2⟩ := h2.ok c1 (Wr.wf w1) (by rw [Wr.cap w1]; omega)
    exact ⟨c2, by rw [bind_run, e1]; exact e2, w1.trans w2⟩
  · intro c hc hl
    rw [List.length_append] at hl
    by_cases h : b1.length ≤ c.cap
    · obtain ⟨c1, e1, w1⟩ := h1.ok c hc h
      obtain ⟨c2, e2⟩ := h2.short c1 (Wr.wf w1) (by rw [Wr.cap w1]; omega)
      exact ⟨c2, by rw [bind_run, e1]; exact e2⟩
    · obtain ⟨c1, e1⟩ := h1.short c hc (by omega)
      exact ⟨c1, by rw [bind_run, e1]⟩

theorem Writes.pure (a : α) : Writes (Pure.pure a : Io ε α) [] a := by
  constructor
  · intro c hc _; exact ⟨c, rfl, Wr.nil hc⟩
  · intro c hc h; simp at h

theorem writes_varintLen {v n : Nat} (hl : IsVarintLen n) :
    Writes (putVarintLen v n : Io ε Unit) (encVarintLen v n) () := by
  have e := encVarintLen_length (v := v) hl
  constructor
  · intro c hc h
    rw [e] at h
    unfold putVarintLen lift
    dsimp only
    rw [putVarintWithLen_ok c v n hc hl h]
    unfold Cur.WF Cur.cap at *
    exact ⟨_, rfl, by rw [e]; omega, rfl, by rw [e]⟩
  · intro c hc h
    rw [e] at h
    unfold putVarintLen lift
    dsimp only
    rw [putVarintWithLen_short c v n h]
    exact ⟨_, rfl⟩

/-- The minimal encoding of an integer below 2^62. -/
def enc (v : Nat) : Bytes := encVarintLen v ((varintLen v).getD 0)

theorem enc_length {v : Nat} (h : v < 2 ^ 62) : varintLen v = some (enc v).length := by
  obtain ⟨n, h1, h2, _⟩ := varintLen_spec h
  unfold enc
  rw [h1]; simp [encVarintLen_length h2]

theorem reads_varint {v : Nat} (h : v < 2 ^ 62) (tail : Bytes) :
    Reads (varint : Io ε Nat) (enc v) tail v := by
  obtain ⟨n, h1, h2, h3⟩ := varintLen_spec h
  unfold enc; rw [h1]
  exact reads_varintLen h2 h3 tail

theorem writes_varint {v : Nat} (h : v < 2 ^ 62) : Writes (putVarint v : Io ε Unit) (enc v) () := by
  obtain ⟨n, h1, h2, h3⟩ := varintLen_spec h
  have : (putVarint v : Io ε Unit) = putVarintLen v n := by
    funext c; unfold putVarint putVarintLen lift Cur.putVarint; rw [h1]
  rw [this]; unfold enc; rw [h1]
  exact writes_varintLen h2

theorem writes_bytes (bs : Bytes) : Writes (putBytes bs : Io ε Unit) bs () := by
  constructor
  · intro c hc h
    unfold putBytes lift Cur.putBytes
    dsimp only
    rw [if_neg (by omega)]
    by_cases h0 : bs.length = 0
    · rw [if_pos h0]
      have : bs = [] := List.length_eq_zero_iff.mp h0
      subst this
      exact ⟨c, rfl, Wr.nil hc⟩
    · rw [if_neg h0]
      unfold Cur.WF Cur.cap at *
      exact ⟨_, rfl, by omega, rfl, rfl⟩
  · intro c hc h
    unfold putBytes lift Cur.putBytes
    dsimp only
    rw [if_pos h]
    exact ⟨_, rfl⟩

theorem writes_u (n v : Nat) : Writes (putU n v : Io ε Unit) (beBytes n v) () := by
  constructor
  · intro c hc h
    rcases putU_cases c n v with ⟨_, h2⟩ | ⟨c', h1, h2⟩
    · unfold Cur.cap at h; simp at h; unfold Cur.WF at hc; omega
    · exact ⟨c', by unfold putU lift; dsimp only; rw [h1], h2⟩
  · intro c hc h
    rcases putU_cases c n v with ⟨h1, h2⟩ | ⟨c', h1, h2⟩
    · exact ⟨c, by unfold putU lift; dsimp only; rw [h1]⟩
    · have := h2.room; unfold Cur.cap at h; simp at h this; omega

/-! ### Reading arbitrary bytes -/

/-- From any cursor, `p` does not panic, leaves the buffer alone, moves only
forward and within the buffer, and returns only values with `Q`. -/
def Safe (p : Io ε α) (Q : α → Prop) : Prop :=
  ∀ c : Cur, c.WF → ∃ r c', p c = (r, c') ∧ c'.buf = c.buf ∧ c.off ≤ c'.off ∧ c'.WF ∧
    r ≠ .error (FromOctets.fromO .panic) ∧ ∀ a, r = .ok a → Q a

theorem Safe.mono {p : Io ε α} {Q R : α → Prop} (h : Safe p Q) (hq : ∀ a, Q a → R a) : Safe p R := by
  intro c hc
  obtain ⟨r, c', h1, h2, h3, h4, h5, h6⟩ := h c hc
  exact ⟨r, c', h1, h2, h3, h4, h5, fun a ha => hq a (h6 a ha)⟩

theorem Safe.bind {p : Io ε α} {f : α → Io ε β} {Q : α → Prop} {R : β → Prop}
    (h1 : Safe p Q) (h2 : ∀ a, Q a → Safe (f a) R) : Safe (p >>= f) R := by
  intro c hc
  obtain ⟨r, c', e, hb, ho, hw, hp, hq⟩ := h1 c hc
  cases r with
  | error er => exact ⟨.error er, c', by rw [bind_run, e], hb, ho, hw, fun h => hp (by cases h; rfl),
      fun a ha => by cases ha⟩
  | ok a =>
    obtain ⟨r, c2, e2, hb2, ho2, hw2, hp2, hq2⟩ := h2 a (hq a rfl) c' hw
    exact ⟨r, c2, by rw [bind_run, e]; exact e2, hb2.trans hb, by omega, hw2, hp2, hq2⟩

theorem Safe.pure {a : α} {Q : α → Prop} (h : Q a) : Safe (Pure.pure a : Io ε α) Q := by
  intro c hc
  exact ⟨.ok a, c, rfl, rfl, Nat.le_refl _, hc, by simp, fun b hb => by cases hb; exact h⟩

theorem Safe.fail {e : ε} {Q : α → Prop} (h : e ≠ FromOctets.fromO .panic) :
    Safe (Io.fail e : Io ε α) Q := by
  intro c hc
  exact ⟨.error e, c, rfl, rfl, Nat.le_refl _, hc, fun hh => h (by cases hh; rfl),
    fun b hb => by cases hb⟩

/-- `BufferTooShort` and a panic are different. -/
def Distinct (ε : Type) [FromOctets ε] : Prop :=
  (FromOctets.fromO .tooShort : ε) ≠ FromOctets.fromO .panic

theorem safe_varint (hd : Distinct ε) : Safe (varint : Io ε Nat) (· < 2 ^ 62) := by
  intro c hc
  unfold varint lift
  rw [getVarint_eq c hc]
  unfold decVarint Cur.rest
  rcases hd' : c.buf.drop c.off with _ | ⟨b, t⟩
  · exact ⟨_, _, rfl, rfl, Nat.le_refl _, hc, fun h => hd (Except.error.inj h), fun a ha => by cases ha⟩
  · simp only
    by_cases hs : (b :: t).length < varintParseLen b
    · rw [if_pos hs]
      exact ⟨_, _, rfl, rfl, Nat.le_refl _, hc, fun h => hd (Except.error.inj h), fun a ha => by cases ha⟩
    · rw [if_neg hs]
      have hl : (c.buf.drop c.off).length = (b :: t).length := by rw [hd']
      rw [List.length_drop] at hl
      refine ⟨_, _, rfl, rfl, by simp only; omega, by unfold Cur.WF at *; simp only; omega, by simp, ?_⟩
      intro a ha
      cases ha
      have h1 : 2 ^ (8 * varintParseLen b - 2) ≤ 2 ^ 62 :=
        Nat.pow_le_pow_right (by omega) (by rcases varintParseLen_isLen b with h | h | h | h <;> omega)
      exact Nat.lt_of_lt_of_le (Nat.mod_lt _ (Nat.two_pow_pos _)) h1

theorem safe_bytes (hd : Distinct ε) (n : Nat) : Safe (bytes n : Io ε Bytes) (fun bs => bs.length = n) := by
  intro c hc
  unfold bytes lift Cur.getBytes
  dsimp only
  by_cases h : c.cap < n
  · rw [if_pos h]
    exact ⟨_, _, rfl, rfl, Nat.le_refl _, hc, fun h => hd (Except.error.inj h), fun a ha => by cases ha⟩
  · rw [if_neg h]
    unfold Cur.cap at h
    refine ⟨_, _, rfl, rfl, by simp only; omega, by unfold Cur.WF at *; simp only; omega, by simp, ?_⟩
    intro a ha; cases ha
    simp; omega

theorem safe_getU (hd : Distinct ε) (n : Nat) : Safe (getU n : Io ε Nat) (· < 256 ^ n) := by
  intro c hc
  unfold getU lift Cur.getU Cur.peekU
  dsimp only
  unfold Cur.WF at hc
  rw [if_neg (by omega)]
  by_cases h : (c.buf.drop c.off).length < n
  · rw [if_pos h]
    exact ⟨_, _, rfl, rfl, Nat.le_refl _, hc, fun h => hd (Except.error.inj h), fun a ha => by cases ha⟩
  · rw [if_neg h]
    rw [List.length_drop] at h
    refine ⟨_, _, rfl, rfl, by simp only; omega, by unfold Cur.WF at *; simp only; omega, by simp, ?_⟩
    intro a ha; cases ha
    have := beVal_lt ((c.buf.drop c.off).take n)
    have e : ((c.buf.drop c.off).take n).length = n := by simp; omega
    rwa [e] at this

theorem safe_varBytes (hd : Distinct ε) : Safe (varBytes : Io ε Bytes) (fun bs => bs.length < 2 ^ 62) :=
  Safe.bind (safe_varint hd) fun n hn => (safe_bytes hd n).mono fun _ h => by omega

theorem safe_cap : Safe (cap : Io ε Nat) (fun _ => True) := by
  intro c hc
  exact ⟨_, c, rfl, rfl, Nat.le_refl _, hc, by simp, fun _ _ => trivial⟩

end
end Verif.Io
