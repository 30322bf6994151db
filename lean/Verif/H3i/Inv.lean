import Verif.H3i.Parser
import Verif.Codec.Fields

/-! The bytes a parser of h3i holds (for the proofs of C177). -/

namespace Verif.H3i
open Verif

/-! ### Variable-length integers -/

theorem isVarint_head {v : Nat} {a : Bytes} (h : IsVarint v a) :
    a ≠ [] ∧ a.length = varintParseLen (a.headD 0) := by
  have hd : decVarint (a ++ []) = .ok (v, a.length) := decVarint_iff.mpr h
  simp only [List.append_nil] at hd
  cases a with
  | nil => simp [decVarint] at hd
  | cons x t =>
    refine ⟨by simp, ?_⟩
    unfold decVarint at hd
    simp only at hd
    split at hd
    · cases hd
    · have := Except.ok.inj hd
      simp only [Prod.mk.injEq] at this
      simpa using this.2.symm

/-- Integers do not overlap. -/
theorem isVarint_unique {v w : Nat} {a b x y : Bytes} (ha : IsVarint v a) (hb : IsVarint w b)
    (h : a ++ x = b ++ y) : v = w ∧ a = b ∧ x = y := by
  have h1 : decVarint (a ++ x) = .ok (v, a.length) := decVarint_iff.mpr ha
  have h2 : decVarint (b ++ y) = .ok (w, b.length) := decVarint_iff.mpr hb
  rw [h, h2] at h1
  have := Except.ok.inj h1
  simp only [Prod.mk.injEq] at this
  obtain ⟨e1, e2⟩ := this
  have := List.append_inj h e2.symm
  exact ⟨e1.symm, this.1, this.2⟩

theorem decVarint_full {b : Bytes} (hne : b ≠ []) (hl : b.length = varintParseLen (b.headD 0)) :
    ∃ v, decVarint b = .ok (v, b.length) ∧ IsVarint v b := by
  cases b with
  | nil => exact absurd rfl hne
  | cons x t =>
    simp only [List.headD_cons] at hl
    have : decVarint (x :: t) = .ok (beVal ((x :: t).take (varintParseLen x)) % 2 ^ (8 * varintParseLen x - 2), varintParseLen x) := by
      unfold decVarint
      simp only
      rw [if_neg (by rw [hl]; omega)]
    rw [← hl] at this
    exact ⟨_, this, decVarint_iff (tail := []) |>.mp (by simpa using this)⟩

/-! ### What is held -/

theorem resize_length (b : Bytes) (n : Nat) : (resize b n).length = n := by
  simp [resize]; omega

/-- The buffer of an integer. -/
def VarOk (p : P) : Prop := (p.off = 0 ∧ p.slen = 1) ∨ (1 ≤ p.off ∧ p.slen = varintParseLen (p.buf.headD 0))

/-- The same after a read: of one byte the length is not known yet. -/
def VarRead (p : P) : Prop := (p.off = 1 ∧ p.slen = 1) ∨ VarOk p

/-- Parts of a frame that are complete, without those in the buffer. -/
def Before (p : P) (h : Bytes) : Prop :=
  match p.mode with
  | .type => h = []
  | .len => ∃ t, p.ty = some t ∧ IsVarint t h
  | .val => ∃ t n a b, p.ty = some t ∧ p.len = some n ∧ IsVarint t a ∧ IsVarint n b ∧ p.slen = n ∧ h = a ++ b

/-- The parser holds the bytes `h` of a frame. -/
structure HeldW (V : P → Prop) (p : P) (h : Bytes) : Prop where
  len : p.buf.length = p.slen
  off : p.off ≤ p.slen
  size : p.slen ≤ maxState
  var : p.mode ≠ .val → V p
  parts : ∃ g, Before p g ∧ h = g ++ p.buf.take p.off

abbrev Held := HeldW VarOk

theorem held_new : Held { } [] := by
  constructor <;> simp [VarOk, Before, maxState]

theorem recv_data {s s' : Src} {n : Nat} {b : Bytes} {fin : Bool} (hr : s.recv n = (s', .data b fin)) :
    b = s.avail.take n ∧ s.avail = b ++ s'.avail ∧ s'.fin = s.fin ∧ s'.reset = none ∧
    (fin = true ↔ s.fin = true ∧ s'.avail = []) ∧ (s'.told = (s.told || fin)) := by
  unfold Src.recv at hr
  split at hr
  · simp at hr
  next hn =>
    split at hr
    · simp at hr
    · simp only [Prod.mk.injEq, Got.data.injEq] at hr
      obtain ⟨rfl, rfl, rfl⟩ := hr
      refine ⟨rfl, by simp, rfl, hn, ?_, rfl⟩
      simp

theorem recv_done {s s' : Src} {n : Nat} (hr : s.recv n = (s', .done)) :
    s' = s ∧ s.avail = [] ∧ (s.fin = true → s.told = true) ∧ s.reset = none := by
  unfold Src.recv at hr
  split at hr
  · simp at hr
  next hn =>
    split at hr
    next hc =>
      simp only [Prod.mk.injEq, and_true] at hr
      subst hr
      refine ⟨rfl, hc.1, ?_, hn⟩
      intro hf
      rcases hc.2 with h | h
      · rw [hf] at h; simp at h
      · exact h
    · simp at hr

/-- A read. -/
theorem fill_spec {p p' : P} {s s' : Src} {h b : Bytes} {fin : Bool} (hh : Held p h)
    (hf : p.fill s = (p', s', .data b fin)) :
    HeldW VarRead p' (h ++ b) ∧ s.avail = b ++ s'.avail ∧ p'.mode = p.mode ∧ s'.fin = s.fin ∧
    (fin = true ↔ s.fin = true ∧ s'.avail = []) ∧
    (s'.told = true → s.told = true ∨ (fin = true ∧ p'.off = p.off + b.length)) ∧
    (p'.off = p'.slen ∨ (s'.avail = [] ∧ p.off ≠ p.slen)) ∧
    (p.off = p.slen → p' = p ∧ b = [] ∧ s' = s) ∧ (s.reset = none → s'.reset = none) ∧
    p'.off = p.off + b.length ∧ (p.off ≠ p.slen → s'.told = (s.told || fin)) := by
  unfold P.fill at hf
  split at hf
  next hc =>
    simp only [Prod.mk.injEq, Got.data.injEq] at hf
    obtain ⟨rfl, rfl, rfl, rfl⟩ := hf
    have hc' : p.off = p.slen := by simpa [P.complete] using hc
    refine ⟨⟨hh.len, hh.off, hh.size, fun hm => Or.inr (hh.var hm), ?_⟩, by simp, rfl, rfl, ?_, fun h => Or.inl h,
      Or.inl hc', fun _ => ⟨rfl, rfl, rfl⟩, fun h => h, by simp, fun h => absurd hc' h⟩
    · obtain ⟨g, h1, h2⟩ := hh.parts
      exact ⟨g, h1, by simpa using h2⟩
    · simp [Src.finished]
  next hc =>
    have hc' : p.off ≠ p.slen := by simpa [P.complete] using hc
    rcases hr : s.recv (p.slen - p.off) with ⟨s1, g⟩
    rw [hr] at hf
    cases g with
    | data b1 fin1 =>
      simp only [Prod.mk.injEq, Got.data.injEq] at hf
      obtain ⟨rfl, rfl, rfl, rfl⟩ := hf
      obtain ⟨r1, r2, r3, r4, r5, r6⟩ := recv_data hr
      have hbl : b1.length ≤ p.slen - p.off := by rw [r1]; simp; omega
      have hoff := hh.off
      have hlen := hh.len
      have htake : (p.buf.take p.off ++ b1 ++ p.buf.drop (p.off + b1.length)).take (p.off + b1.length) =
          p.buf.take p.off ++ b1 := by
        have : (p.buf.take p.off ++ b1).length = p.off + b1.length := by simp; omega
        rw [← this, List.take_left]
      refine ⟨⟨?_, ?_, hh.size, ?_, ?_⟩, r2, rfl, r3, r5, ?_, ?_, fun h => absurd h hc', fun _ => r4, rfl, fun _ => r6⟩
      · simp; omega
      · simp only; omega
      · intro hm
        have hv := hh.var hm
        unfold VarOk at hv
        unfold VarRead VarOk
        simp only
        rcases hv with ⟨h0, h1⟩ | ⟨h0, h1⟩
        · by_cases hb : b1.length = 0
          · right; left; omega
          · left; omega
        · right; right
          refine ⟨by omega, ?_⟩
          rw [h1]
          rcases hx : p.buf with _ | ⟨y, ys⟩
          · rw [hx] at hlen; simp at hlen; omega
          · have : p.off = (p.off - 1) + 1 := by omega
            rw [this]
            simp
      · obtain ⟨g, h1, h2⟩ := hh.parts
        refine ⟨g, ?_, ?_⟩
        · simpa [Before] using h1
        · simp only
          rw [htake, h2, List.append_assoc]
      · intro ht
        rw [r6] at ht
        simp only [Bool.or_eq_true] at ht
        rcases ht with ht | ht
        · exact Or.inl ht
        · exact Or.inr ⟨ht, rfl⟩
      · by_cases hlt : s.avail.length < p.slen - p.off
        · right
          refine ⟨?_, hc'⟩
          have : b1 = s.avail := by rw [r1]; exact List.take_of_length_le (by omega)
          rw [this] at r2
          simpa using r2
        · left
          have : b1.length = p.slen - p.off := by rw [r1]; simp; omega
          simp only; omega
    | done => simp at hf
    | reset e => simp at hf

theorem take_one_headD {b : Bytes} (h : 1 ≤ b.length) (n : Nat) (hn : 1 ≤ n) :
    (resize b n).headD 0 = b.headD 0 ∧ (resize b n).take 1 = b.take 1 := by
  cases b with
  | nil => simp at h
  | cons x t =>
    obtain ⟨m, rfl⟩ : ∃ m, n = m + 1 := ⟨n - 1, by omega⟩
    simp [resize]

theorem parseLen_pos (b : UInt8) : 1 ≤ varintParseLen b ∧ varintParseLen b ≤ 8 := by
  rcases varintParseLen_isLen b with h | h | h | h <;> omega

/-- An integer in the buffer. -/
theorem varint_spec {p p' : P} {h : Bytes} {r : Option Nat} (hh : HeldW VarRead p h) (hm : p.mode ≠ .val)
    (hv : p.varint = (p', r)) :
    Held p' h ∧ p'.mode = p.mode ∧ p'.ty = p.ty ∧ p'.len = p.len ∧ p'.off = p.off ∧
    (∀ v, r = some v → p'.off = p'.slen ∧ IsVarint v p'.buf) ∧ (r = none → p'.off ≠ p'.slen) := by
  have hlen := hh.len
  have hoff := hh.off
  -- the buffer after its length is known
  have key : ∃ q : P, q = (if p.off = 1 then
      { p with slen := varintParseLen (p.buf.headD 0), buf := resize p.buf (varintParseLen (p.buf.headD 0)) }
    else p) ∧ Held q h ∧ q.mode = p.mode ∧ q.ty = p.ty ∧ q.len = p.len ∧ q.off = p.off := by
    refine ⟨_, rfl, ?_⟩
    by_cases h1 : p.off = 1
    · rw [if_pos h1]
      have hb : 1 ≤ p.buf.length := by omega
      obtain ⟨hp1, hp8⟩ := parseLen_pos (p.buf.headD 0)
      obtain ⟨e1, e2⟩ := take_one_headD hb _ hp1
      refine ⟨⟨resize_length _ _, by simp only; omega, by simp only [maxState]; omega, ?_, ?_⟩, rfl, rfl, rfl, rfl⟩
      · intro _
        right
        refine ⟨by simp only; omega, ?_⟩
        simp only [e1]
      · obtain ⟨g, k1, k2⟩ := hh.parts
        refine ⟨g, ?_, ?_⟩
        · unfold Before at k1 ⊢
          cases hx : p.mode with
          | val => exact absurd hx hm
          | type => simpa [hx] using k1
          | len => simpa [hx] using k1
        · simp only [h1, e2]
          rw [h1] at k2
          exact k2
    · rw [if_neg h1]
      refine ⟨⟨hlen, hoff, hh.size, ?_, hh.parts⟩, rfl, rfl, rfl, rfl⟩
      intro hm'
      rcases hh.var hm' with k | k
      · exact absurd k.1 h1
      · exact k
  obtain ⟨q, hq, hheld, k1, k2, k3, k4⟩ := key
  unfold P.varint at hv
  simp only at hv
  rw [← hq] at hv
  split at hv
  next hc =>
    have hc' : q.off = q.slen := by simpa [P.complete] using hc
    have hvq := hheld.var (by rw [k1]; exact hm)
    have hfull : q.buf ≠ [] ∧ q.buf.length = varintParseLen (q.buf.headD 0) := by
      have := hheld.len
      unfold VarOk at hvq
      rcases hvq with ⟨a, b⟩ | ⟨a, b⟩
      · omega
      · refine ⟨?_, by omega⟩
        intro hx
        rw [hx] at this
        simp at this
        omega
    obtain ⟨v, d1, d2⟩ := decVarint_full hfull.1 hfull.2
    rw [d1] at hv
    simp only [Prod.mk.injEq] at hv
    obtain ⟨rfl, rfl⟩ := hv
    exact ⟨hheld, k1, k2, k3, k4, fun w hw => ⟨hc', by simp at hw; rw [← hw]; exact d2⟩, by simp⟩
  next hc =>
    simp only [Prod.mk.injEq] at hv
    obtain ⟨rfl, rfl⟩ := hv
    exact ⟨hheld, k1, k2, k3, k4, by simp, fun _ => by simpa [P.complete] using hc⟩

/-- A frame (RFC 9114, section 7.1): its type, its length, its payload. -/
def Wire (f : Nat × Bytes) (bs : Bytes) : Prop :=
  ∃ a b, IsVarint f.1 a ∧ IsVarint f.2.length b ∧ bs = a ++ b ++ f.2

/-- No frame is complete in `h`. -/
def NoFrame (h : Bytes) : Prop := ∀ f w r, Wire f w → h ≠ w ++ r

theorem short_varint {p : P} (hlen : p.buf.length = p.slen) (hoff : p.off < p.slen) (hv : VarOk p) {v : Nat} {a x : Bytes} (ha : IsVarint v a) :
    p.buf.take p.off ≠ a ++ x := by
  intro he
  obtain ⟨h1, h2⟩ := isVarint_head ha
  have hl := congrArg List.length he
  simp at hl
  rcases hv with ⟨o, _⟩ | ⟨o, hs⟩
  · rw [o] at he
    simp at he
    exact h1 he.1
  · have hh : a.headD 0 = p.buf.headD 0 := by
      rcases hb : p.buf with _ | ⟨y, ys⟩
      · rw [hb] at hlen; simp at hlen; omega
      · rw [hb] at he
        rcases ha' : a with _ | ⟨z, zs⟩
        · exact absurd ha' h1
        · rw [ha'] at he
          have : p.off = (p.off - 1) + 1 := by omega
          rw [this] at he
          simp at he
          simp [he.1]
    rw [hh] at h2
    omega

theorem held_noFrame {p : P} {h : Bytes} (hh : Held p h) (hc : p.off ≠ p.slen) : NoFrame h := by
  intro f w r hw he
  obtain ⟨a, b, ha, hb, rfl⟩ := hw
  obtain ⟨g, hg, hp⟩ := hh.parts
  have hoff : p.off < p.slen := by have := hh.off; omega
  unfold Before at hg
  cases hm : p.mode with
  | type =>
    rw [hm] at hg
    simp only at hg
    subst hg
    rw [he, List.nil_append, List.append_assoc, List.append_assoc] at hp
    exact short_varint hh.len hoff (hh.var (by rw [hm]; simp)) ha hp.symm
  | len =>
    rw [hm] at hg
    obtain ⟨t, _, ht⟩ := hg
    rw [he, List.append_assoc, List.append_assoc] at hp
    obtain ⟨_, _, e⟩ := isVarint_unique ha ht hp
    exact short_varint hh.len hoff (hh.var (by rw [hm]; simp)) hb e.symm
  | val =>
    rw [hm] at hg
    obtain ⟨t, n, a', b', _, _, ht, hn, hs, rfl⟩ := hg
    rw [he, List.append_assoc, List.append_assoc, List.append_assoc] at hp
    obtain ⟨_, _, e⟩ := isVarint_unique ha ht hp
    obtain ⟨e1, _, e2⟩ := isVarint_unique hb hn e
    have := congrArg List.length e2
    simp at this
    have := hh.len
    omega

end Verif.H3i
