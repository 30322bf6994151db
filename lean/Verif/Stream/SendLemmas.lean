import Verif.Stream.SendBuf
import Verif.Ranges.Lemmas

/-! Lemmas about the chunk queue of the send buffer model. -/

namespace Verif
namespace Stream
open Ranges

/-! ### The acknowledged offset -/

/-- `ack_off` of a list of ranges. -/
def ackOffOf (l : List Rng) : Nat :=
  match l.head? with
  | some (0, e) => e
  | _ => 0

theorem SendBuf.ackOff_eq (s : SendBuf) : s.ackOff = ackOffOf s.acked.ranges := rfl

theorem ackOffOf_spec {l : List Rng} (h : Norm l) :
    (∀ o, o < ackOffOf l → Mem o l) ∧ ¬ Mem (ackOffOf l) l := by
  cases l with
  | nil => simp [ackOffOf]
  | cons r t =>
    obtain ⟨a, e⟩ := r
    have hc := norm_cons.mp h
    have hgt : ∀ n, n ≤ e → ¬ Mem n t := by
      rintro n hn ⟨r, hr, h1, h2⟩
      have := hc.2.1 r hr
      simp only at this; omega
    cases a with
    | zero =>
      simp only [ackOffOf, List.head?_cons]
      refine ⟨fun o ho => (mem_cons _ _ _).mpr (.inl ⟨by simp, ho⟩), fun hm => ?_⟩
      rcases (mem_cons _ _ _).mp hm with h1 | h1
      · simp only at h1; omega
      · exact hgt e (Nat.le_refl _) h1
    | succ a =>
      simp only [ackOffOf, List.head?_cons]
      refine ⟨fun o ho => by omega, fun hm => ?_⟩
      rcases (mem_cons _ _ _).mp hm with h1 | h1
      · simp only at h1; omega
      · exact hgt 0 (by omega) h1

theorem ackOffOf_mono {l l' : List Rng} (h : Norm l) (h' : Norm l')
    (hm : ∀ n, Mem n l → Mem n l') : ackOffOf l ≤ ackOffOf l' := by
  have h1 := ackOffOf_spec h
  have h2 := ackOffOf_spec h'
  by_cases hlt : ackOffOf l' < ackOffOf l
  · exact absurd (hm _ (h1.1 _ hlt)) h2.2
  · omega

theorem ackOffOf_le {l : List Rng} {B : Nat} (h : ∀ r ∈ l, r.2 ≤ B) : ackOffOf l ≤ B := by
  cases l with
  | nil => simp [ackOffOf]
  | cons r t =>
    obtain ⟨a, e⟩ := r
    have := h (a, e) (by simp)
    cases a <;> simp_all [ackOffOf]

theorem norm_length_le {l : List Rng} (h : Norm l) {A B : Nat} (hA : ∀ r ∈ l, A ≤ r.1)
    (hB : ∀ r ∈ l, r.2 ≤ B) (hAB : A ≤ B + 1) : l.length + A ≤ B + 1 := by
  induction l generalizing A with
  | nil => simpa using hAB
  | cons r t ih =>
    have hc := norm_cons.mp h
    have h1 := hA r (by simp)
    have h2 := hB r (by simp)
    have := ih hc.2.2 (A := r.2 + 1) (fun x hx => hc.2.1 x hx) (fun x hx => hB x (by simp [hx]))
      (by omega)
    have := hc.1
    simp only [List.length_cons]; omega

/-- Ranges that cover everything below `F` and stay below it are the one range. -/
theorem norm_full {l : List Rng} (h : Norm l) {F : Nat} (hF : 0 < F) (hB : ∀ r ∈ l, r.2 ≤ F)
    (hm : ∀ o, o < F → Mem o l) : l = [(0, F)] := by
  have hs := ackOffOf_spec h
  have hle := ackOffOf_le hB
  have hA : ackOffOf l = F := by
    by_cases hlt : ackOffOf l < F
    · exact absurd (hm _ hlt) hs.2
    · omega
  cases l with
  | nil => simp [ackOffOf] at hA; omega
  | cons r t =>
    obtain ⟨a, e⟩ := r
    have hc := norm_cons.mp h
    cases a with
    | succ a => simp [ackOffOf] at hA; omega
    | zero =>
      simp only [ackOffOf, List.head?_cons] at hA
      subst hA
      cases t with
      | nil => rfl
      | cons r2 t =>
        have h1 := hc.2.1 r2 (by simp)
        have h2 := hB r2 (by simp)
        have h3 := (norm_cons.mp hc.2.2).1
        simp only at h1; omega

/-! ### Chunk lists -/

/-- A chunk with a non-empty extent `off' .. off' + len'` all of whose bytes are
the bytes of `W` at these offsets. -/
structure Good (W : Bytes) (c : RangeBuf) : Prop where
  wf : c.WF
  pos : 0 < c.len'
  agree : ∀ k, k < c.len' → c.data[c.start + k]? = W[c.off' + k]?

/-- The extents of the chunks follow each other without gap from `b` to `t`. -/
def Chain : Nat → List RangeBuf → Nat → Prop
  | b, [], t => b = t
  | b, c :: l, t => c.off' = b ∧ Chain (b + c.len') l t

/-- Offset `o` is waiting to be sent. -/
def Pend (l : List RangeBuf) (o : Nat) : Prop := ∃ c ∈ l, c.off ≤ o ∧ o < c.maxOff

/-- Number of bytes waiting to be sent. -/
def lens (l : List RangeBuf) : Nat := (l.map RangeBuf.len).sum

@[simp] theorem lens_nil : lens [] = 0 := rfl
@[simp] theorem lens_cons (c : RangeBuf) (l : List RangeBuf) : lens (c :: l) = c.len + lens l := by
  simp [lens]
theorem lens_append (k l : List RangeBuf) : lens (k ++ l) = lens k + lens l := by
  simp [lens]

@[simp] theorem pend_nil (o : Nat) : ¬ Pend [] o := by simp [Pend]
theorem pend_cons (c : RangeBuf) (l : List RangeBuf) (o : Nat) :
    Pend (c :: l) o ↔ (c.off ≤ o ∧ o < c.maxOff) ∨ Pend l o := by simp [Pend]
theorem pend_append (k l : List RangeBuf) (o : Nat) : Pend (k ++ l) o ↔ Pend k o ∨ Pend l o := by
  simp only [Pend, List.mem_append, or_and_right, exists_or]

theorem Good.nums {W : Bytes} {c : RangeBuf} (h : Good W c) :
    c.off = c.off' + (c.pos - c.start) ∧ c.len = c.len' - (c.pos - c.start) ∧
    c.maxOff = c.off' + c.len' ∧ c.off' ≤ c.off ∧ c.off ≤ c.maxOff ∧ c.maxOff = c.off + c.len := by
  have h1 := h.wf
  simp only [RangeBuf.WF] at h1
  have h2 : c.off = c.off' + (c.pos - c.start) := by simp only [RangeBuf.off]; omega
  have h3 : c.len = c.len' - (c.pos - c.start) := rfl
  have h4 : c.maxOff = c.off + c.len := rfl
  refine ⟨h2, h3, by omega, by omega, by omega, h4⟩

theorem Good.bound {W : Bytes} {c : RangeBuf} (h : Good W c) : c.off' + c.len' ≤ W.length := by
  have h1 := h.wf
  have h2 := h.pos
  simp only [RangeBuf.WF] at h1
  have h3 := h.agree (c.len' - 1) (by omega)
  rw [List.getElem?_eq_getElem (by omega)] at h3
  have := (List.getElem?_eq_some_iff.mp h3.symm).1
  omega

theorem Good.mono {W : Bytes} {c : RangeBuf} (h : Good W c) (X : Bytes) : Good (W ++ X) c := by
  refine ⟨h.wf, h.pos, fun k hk => ?_⟩
  have := h.bound
  rw [h.agree k hk, List.getElem?_append_left (by omega)]

theorem Good.setPos {W : Bytes} {c : RangeBuf} (h : Good W c) {p : Nat} (h1 : c.start ≤ p)
    (h2 : p ≤ c.start + c.len') : Good W { c with pos := p } := by
  refine ⟨?_, h.pos, h.agree⟩
  have := h.wf
  simp only [RangeBuf.WF] at *; omega

/-- The bytes still to be sent of a chunk are those of `W`. -/
theorem Good.bytes {W : Bytes} {c : RangeBuf} (h : Good W c) {k : Nat} (hk : k < c.len) :
    c.bytes[k]? = W[c.off + k]? := by
  have h1 := h.wf
  have h2 := h.nums
  simp only [RangeBuf.WF] at h1
  have h3 := h.agree (c.pos - c.start + k) (by omega)
  have e : c.off + k = c.off' + (c.pos - c.start + k) := by omega
  rw [e, ← h3]
  simp only [RangeBuf.bytes, List.getElem?_drop]
  rw [List.getElem?_take_of_lt (by omega)]
  congr 1; omega

theorem Good.mk' {W : Bytes} {d : Bytes} (hd : 0 < d.length) (fin : Bool) :
    Good (W ++ d) (RangeBuf.mk' d W.length fin) := by
  refine ⟨RangeBuf.wf_mk' _ _ _, hd, fun k hk => ?_⟩
  simp only [RangeBuf.mk', Nat.zero_add] at *
  rw [List.getElem?_append_right (by omega)]
  congr 1; omega

theorem Chain.le {b t : Nat} {l : List RangeBuf} (h : Chain b l t) : b ≤ t := by
  induction l generalizing b with
  | nil => exact Nat.le_of_eq h
  | cons c l ih => have := ih h.2; omega

theorem Chain.mem {b t : Nat} {l : List RangeBuf} (h : Chain b l t) {c : RangeBuf} (hc : c ∈ l) :
    b ≤ c.off' ∧ c.off' + c.len' ≤ t := by
  induction l generalizing b with
  | nil => simp at hc
  | cons d l ih =>
    have hle := Chain.le h.2
    have := h.1
    rcases List.mem_cons.mp hc with rfl | hc
    · omega
    · have := ih h.2 hc; omega

theorem Chain.append {b m t : Nat} {k l : List RangeBuf} (h : Chain b k m) (h' : Chain m l t) :
    Chain b (k ++ l) t := by
  induction k generalizing b with
  | nil => simp only [Chain] at h; subst h; exact h'
  | cons c k ih => exact ⟨h.1, ih h.2⟩

/-- Offsets inside a chain belong to a chunk. -/
theorem Chain.cover {b t : Nat} {l : List RangeBuf} (h : Chain b l t) {o : Nat} (h1 : b ≤ o)
    (h2 : o < t) : ∃ c ∈ l, c.off' ≤ o ∧ o < c.off' + c.len' := by
  induction l generalizing b with
  | nil => simp only [Chain] at h; omega
  | cons c l ih =>
    by_cases hc : o < b + c.len'
    · exact ⟨c, by simp, by have := h.1; omega, by have := h.1; omega⟩
    · obtain ⟨d, hd, h3⟩ := ih h.2 (by omega)
      exact ⟨d, by simp [hd], h3⟩

theorem pend_range {W : Bytes} {b t : Nat} {l : List RangeBuf} (h : Chain b l t)
    (hg : ∀ c ∈ l, Good W c) {o : Nat} (hp : Pend l o) : b ≤ o ∧ o < t := by
  obtain ⟨c, hc, h1, h2⟩ := hp
  have h3 := h.mem hc
  have h4 := (hg c hc).nums
  omega

theorem lens_zero {l : List RangeBuf} (h : ∀ c ∈ l, c.len = 0) : lens l = 0 := by
  induction l with
  | nil => rfl
  | cons c l ih =>
    simp only [lens_cons]
    have := h c (by simp)
    have := ih (fun d hd => h d (by simp [hd])); omega

theorem not_pend_of_len {l : List RangeBuf} (h : ∀ c ∈ l, c.len = 0) (o : Nat) : ¬ Pend l o := by
  rintro ⟨c, hc, h1, h2⟩
  have := h c hc
  simp only [RangeBuf.maxOff] at h2; omega

/-! ### The first unsent offset -/

theorem firstUnsent_spec {W : Bytes} {b off : Nat} {l : List RangeBuf} (h : Chain b l off)
    (hg : ∀ c ∈ l, Good W c) :
    b ≤ SendBuf.firstUnsent off l ∧ SendBuf.firstUnsent off l ≤ off ∧
    (SendBuf.firstUnsent off l < off → Pend l (SendBuf.firstUnsent off l)) ∧
    (∀ o, Pend l o → SendBuf.firstUnsent off l ≤ o) := by
  induction l generalizing b with
  | nil => simp only [Chain] at h; subst h; simp [SendBuf.firstUnsent]
  | cons c l ih =>
    have hc := hg c (by simp)
    have hn := hc.nums
    have hle := Chain.le h.2
    have h1 := h.1
    have hch := h.2
    obtain ⟨i1, i2, i3, i4⟩ := ih h.2 (fun d hd => hg d (by simp [hd]))
    simp only [SendBuf.firstUnsent, RangeBuf.isEmpty, beq_iff_eq]
    split
    · rename_i h0
      refine ⟨by omega, i2, fun hl => (pend_cons _ _ _).mpr (.inr (i3 hl)), fun o ho => ?_⟩
      rcases (pend_cons _ _ _).mp ho with h | h
      · omega
      · exact i4 o h
    · rename_i h0
      refine ⟨by omega, by omega, fun _ => (pend_cons _ _ _).mpr (.inl (by omega)), fun o ho => ?_⟩
      rcases (pend_cons _ _ _).mp ho with h | h
      · omega
      · have := pend_range hch (fun d hd => hg d (by simp [hd])) h; omega

/-! ### Emission -/

/-- The outcome of the emission loop on the chunks `l` from the position on. -/
structure Emitted (W : Bytes) (base off maxD nextOff outLen : Nat) (l l' : List RangeBuf)
    (k next' : Nat) (bs : Bytes) : Prop where
  chain : Chain base l' off
  good : ∀ c ∈ l', Good W c
  done : ∀ c ∈ l'.take k, c.len = 0
  kle : k ≤ l'.length
  same : l'.length = l.length
  next : next' = nextOff + bs.length
  fits : bs.length ≤ outLen
  lens : Stream.lens l' + bs.length = Stream.lens l
  bytes : ∀ j, j < bs.length → bs[j]? = W[nextOff + j]?
  pend : ∀ o, Pend l' o ↔ Pend l o ∧ ¬ (nextOff ≤ o ∧ o < next')
  was : ∀ o, nextOff ≤ o → o < next' → Pend l o
  mark : ∀ E, (∀ c ∈ l, c.off ≤ max E c.off') → ∀ c ∈ l', c.off ≤ max (max E next') c.off'
  progress : 0 < outLen → SendBuf.firstUnsent off l = nextOff → nextOff < off → nextOff < maxD →
    0 < bs.length

theorem Emitted.stay {W : Bytes} {base off maxD nextOff outLen : Nat} {l : List RangeBuf}
    (h : Chain base l off) (hg : ∀ c ∈ l, Good W c)
    (hp : ¬ (0 < outLen ∧ SendBuf.firstUnsent off l = nextOff ∧ nextOff < off ∧ nextOff < maxD)) :
    Emitted W base off maxD nextOff outLen l l 0 nextOff [] where
  chain := h
  good := hg
  done := by simp
  kle := by simp
  same := rfl
  next := by simp
  fits := by simp
  lens := by simp
  bytes := by simp
  pend := by intro o; constructor
             · intro h; exact ⟨h, by omega⟩
             · exact fun h => h.1
  was := by intro o h1 h2; omega
  mark := by intro E hE c hc; have := hE c hc; omega
  progress := by intro h1 h2 h3 h4; exact absurd ⟨h1, h2, h3, h4⟩ hp

theorem emitLoop_spec {W : Bytes} {off maxD : Nat} (l : List RangeBuf) :
    ∀ (pre : List RangeBuf) (base fuel pos buffered nextOff outLen : Nat) (out : Bytes),
    l.length < fuel → pos = pre.length → Chain base l off → (∀ c ∈ l, Good W c) →
    lens l ≤ buffered →
    ∃ l' k next' bs,
      SendBuf.emitLoop off maxD fuel (pre ++ l) pos buffered nextOff outLen out =
        .ok (pre ++ l', pos + k, buffered - bs.length, next', out ++ bs) ∧
      Emitted W base off maxD nextOff outLen l l' k next' bs := by
  induction l with
  | nil =>
    intro pre base fuel pos buffered nextOff outLen out hf hpos hch hg hb
    obtain ⟨fuel, rfl⟩ : ∃ f, fuel = f + 1 := ⟨fuel - 1, by simp at hf; omega⟩
    refine ⟨[], 0, nextOff, [], ?_, Emitted.stay hch hg ?_⟩
    · simp only [SendBuf.emitLoop]
      split
      · simp
      · rw [if_pos]
        · simp
        · subst hpos; simp [SendBuf.firstUnsent]
    · subst hpos; simp [SendBuf.firstUnsent]; omega
  | cons c t ih =>
    intro pre base fuel pos buffered nextOff outLen out hf hpos hch hg hb
    obtain ⟨fuel, rfl⟩ : ∃ f, fuel = f + 1 := ⟨fuel - 1, by omega⟩
    have hc := hg c (by simp)
    have hn := hc.nums
    have hgt : ∀ d ∈ t, Good W d := fun d hd => hg d (by simp [hd])
    have h1 := hch.1
    have htop := Chain.le hch.2
    have hfu := firstUnsent_spec hch hg
    subst hpos
    have hdrop : (pre ++ c :: t).drop pre.length = c :: t := by simp
    have hget : (pre ++ c :: t)[pre.length]? = some c := by simp
    simp only [List.length_cons] at hf
    simp only [lens_cons] at hb
    simp only [SendBuf.emitLoop, hdrop, hget]
    by_cases ho : outLen = 0
    · rw [if_pos ho]
      exact ⟨c :: t, 0, nextOff, [], by simp, Emitted.stay hch hg (by omega)⟩
    rw [if_neg ho]
    by_cases hbr : SendBuf.firstUnsent off (c :: t) = nextOff ∧ nextOff < off ∧ nextOff < maxD
    rotate_left
    · rw [if_pos]
      · exact ⟨c :: t, 0, nextOff, [], by simp, Emitted.stay hch hg (by simpa [ho] using fun _ => by simpa using hbr)⟩
      · simp; omega
    rw [if_neg (by simp; omega)]
    by_cases he : c.len = 0
    · have he' : c.isEmpty = true := by simp [RangeBuf.isEmpty, he]
      rw [if_pos he']
      obtain ⟨l', k, next', bs, e, E⟩ := ih (pre ++ [c]) (base + c.len') fuel (pre.length + 1)
        buffered nextOff outLen out (by omega) (by simp) hch.2 hgt (by omega)
      refine ⟨c :: l', k + 1, next', bs, ?_, ?_⟩
      · rw [List.append_assoc] at e
        simp only [List.singleton_append] at e
        rw [e]
        have a1 : pre.length + 1 + k = pre.length + (k + 1) := by omega
        rw [a1]; simp
      · refine ⟨⟨h1, E.chain⟩, ?_, ?_, ?_, by simp [E.same], E.next, E.fits, ?_, E.bytes, ?_, ?_, ?_, ?_⟩
        · intro d hd; rcases List.mem_cons.mp hd with rfl | hd
          · exact hc
          · exact E.good d hd
        · intro d hd
          rw [List.take_succ_cons] at hd
          rcases List.mem_cons.mp hd with rfl | hd
          · exact he
          · exact E.done d hd
        · simp only [List.length_cons]; have := E.kle; omega
        · simp only [lens_cons]; have := E.lens; omega
        · intro o
          rw [pend_cons, pend_cons, E.pend o]
          constructor
          · rintro (h | h)
            · omega
            · exact ⟨.inr h.1, h.2⟩
          · rintro ⟨h | h, h'⟩
            · omega
            · exact .inr ⟨h, h'⟩
        · intro o a b
          exact (pend_cons _ _ _).mpr (.inr (E.was o a b))
        · intro M hM d hd
          rcases List.mem_cons.mp hd with rfl | hd
          · have := hM d (by simp); omega
          · exact E.mark M (fun x hx => hM x (by simp [hx])) d hd
        · intro a b c' d
          refine E.progress a ?_ c' d
          rw [← b]; simp [SendBuf.firstUnsent, he']
    · have he' : ¬ c.isEmpty = true := by simp [RangeBuf.isEmpty, he]
      have hfc : SendBuf.firstUnsent off (c :: t) = c.off := by
        simp only [SendBuf.firstUnsent]; rw [if_neg he']
      rw [if_neg he', if_neg (by omega)]
      have hno : nextOff = c.off := by rw [← hfc]; exact hbr.1.symm
      have hset : ∀ x, (pre ++ c :: t).set pre.length x = pre ++ x :: t := by intro x; simp
      simp only [hset]
      obtain ⟨m, hm⟩ : ∃ m, m = min c.len outLen := ⟨_, rfl⟩
      rw [← hm]
      have hlen : (c.bytes.take m).length = m := by
        rw [List.length_take, RangeBuf.bytes_length hc.wf]; omega
      have hcs := RangeBuf.consume_spec hc.wf (n := m) (by omega)
      have hgc : Good W (c.consume m) := by
        have := hc.wf
        simp only [RangeBuf.WF] at this
        exact hc.setPos (by omega) (by omega)
      have hbytes : ∀ j, j < m → (c.bytes.take m)[j]? = W[nextOff + j]? := by
        intro j hj
        rw [List.getElem?_take_of_lt hj, hc.bytes (by omega), hno]
      have hch' : Chain base (c.consume m :: t) off := hch
      have hoff' : (c.consume m).off' = c.off' := rfl
      by_cases hp : m < c.len
      · rw [if_pos hp]
        refine ⟨c.consume m :: t, 0, c.off + m, c.bytes.take m, by simp [hlen], ?_⟩
        refine ⟨hch', ?_, by simp, by simp, by simp, by omega, by omega, ?_, ?_, ?_, ?_, ?_, ?_⟩
        · intro d hd; rcases List.mem_cons.mp hd with rfl | hd
          · exact hgc
          · exact hgt d hd
        · simp only [lens_cons]; omega
        · rw [hlen]; exact hbytes
        · intro o
          rw [pend_cons, pend_cons, hcs.2.1, hcs.2.2.1]
          constructor
          · rintro (h | h)
            · exact ⟨.inl (by omega), by omega⟩
            · have := pend_range hch.2 hgt h
              exact ⟨.inr h, by omega⟩
          · rintro ⟨h | h, h'⟩
            · exact .inl (by omega)
            · exact .inr h
        · intro o a b; exact (pend_cons _ _ _).mpr (.inl (by omega))
        · intro M hM d hd
          rcases List.mem_cons.mp hd with rfl | hd
          · rw [hcs.2.1]; omega
          · have := hM d (by simp [hd]); omega
        · intros; omega
      · rw [if_neg hp]
        obtain ⟨l', k, next', bs, e, E⟩ := ih (pre ++ [c.consume m]) (base + c.len') fuel
          (pre.length + 1) (buffered - m) (c.off + m) (outLen - m) (out ++ c.bytes.take m)
          (by omega) (by simp) hch.2 hgt (by omega)
        refine ⟨c.consume m :: l', k + 1, next', c.bytes.take m ++ bs, ?_, ?_⟩
        · rw [List.append_assoc] at e
          simp only [List.singleton_append] at e
          rw [e]
          have a1 : pre.length + 1 + k = pre.length + (k + 1) := by omega
          have a2 : buffered - m - bs.length = buffered - (m + bs.length) := by omega
          rw [a1, a2]; simp [hlen]
        · have hE := E.next
          have hF := E.fits
          refine ⟨⟨h1, E.chain⟩, ?_, ?_, ?_, by simp [E.same], ?_, ?_, ?_, ?_, ?_, ?_, ?_, ?_⟩
          · intro d hd; rcases List.mem_cons.mp hd with rfl | hd
            · exact hgc
            · exact E.good d hd
          · intro d hd
            rw [List.take_succ_cons] at hd
            rcases List.mem_cons.mp hd with rfl | hd
            · rw [hcs.2.2.2.2.1]; omega
            · exact E.done d hd
          · simp only [List.length_cons]; have := E.kle; omega
          · simp only [List.length_append, hlen]; omega
          · simp only [List.length_append, hlen]; omega
          · simp only [lens_cons, List.length_append, hlen, hcs.2.2.2.2.1]; have := E.lens; omega
          · intro j hj
            simp only [List.length_append, hlen] at hj
            by_cases hjm : j < m
            · rw [List.getElem?_append_left (by omega)]; exact hbytes j hjm
            · rw [List.getElem?_append_right (by omega), hlen, E.bytes _ (by omega)]
              congr 1; omega
          · intro o
            rw [pend_cons, pend_cons, hcs.2.1, hcs.2.2.1, E.pend o]
            constructor
            · rintro (h | h)
              · omega
              · have := pend_range hch.2 hgt h.1
                exact ⟨.inr h.1, by omega⟩
            · rintro ⟨h | h, h'⟩
              · omega
              · exact .inr ⟨h, by omega⟩
          · intro o a b
            by_cases hom : o < c.off + m
            · exact (pend_cons _ _ _).mpr (.inl (by omega))
            · exact (pend_cons _ _ _).mpr (.inr (E.was o (by omega) b))
          · intro M hM d hd
            rcases List.mem_cons.mp hd with rfl | hd
            · rw [hcs.2.1]; omega
            · exact E.mark M (fun x hx => hM x (by simp [hx])) d hd
          · intros; simp only [List.length_append, hlen]; omega

/-! ### Retransmission -/

/-- The outcome of the retransmission loop. -/
structure Requeued (W : Bytes) (base top lo hi i pos : Nat) (l l' : List RangeBuf)
    (pos' r : Nat) : Prop where
  chain : Chain base l' top
  good : ∀ c ∈ l', Good W c
  lens : Stream.lens l' = Stream.lens l + r
  pos_le : pos' ≤ pos
  done : (∀ c ∈ l.take (pos - i), c.len = 0) → ∀ c ∈ l'.take (pos' - i), c.len = 0
  longer : l.length ≤ l'.length
  pend : ∀ o, Pend l' o ↔ Pend l o ∨ (lo ≤ o ∧ o < hi ∧ base ≤ o ∧ o < top)
  mark : ∀ E, (∀ c ∈ l, c.off ≤ max E c.off') → ∀ c ∈ l', c.off ≤ max E c.off'

theorem retransmitLoop_stop {lo hi n i pos buffered total : Nat} {l : List RangeBuf}
    (h : ∀ b ∈ l.head?, hi ≤ b.off') :
    SendBuf.retransmitLoop lo hi n l i pos buffered total = .ok (l, pos, buffered, total) := by
  cases n with
  | zero => rfl
  | succ n =>
    cases l with
    | nil => rfl
    | cons b t =>
      have := h b (by simp)
      simp only [SendBuf.retransmitLoop]
      rw [if_pos (by omega)]

theorem Requeued.stay {W : Bytes} {base top lo hi i pos : Nat} {l : List RangeBuf}
    (h : Chain base l top) (hg : ∀ c ∈ l, Good W c) (hb : hi ≤ base ∨ l = []) :
    Requeued W base top lo hi i pos l l pos 0 where
  chain := h
  good := hg
  lens := by simp
  pos_le := Nat.le_refl _
  done := id
  longer := Nat.le_refl _
  pend := by
    intro o
    constructor
    · exact .inl
    · rintro (h1 | h1)
      · exact h1
      · rcases hb with hb | hb
        · omega
        · subst hb; simp only [Chain] at h; omega
  mark := by intro E hE; exact hE

/-- Both halves of a split chunk. -/
theorem Good.split {W : Bytes} {c : RangeBuf} (h : Good W c) {n : Nat} (h0 : 0 < n)
    (hn : n < c.len') :
    ∃ a b, c.splitOff n = some (a, b) ∧ Good W a ∧ Good W b ∧ a.off' = c.off' ∧ a.len' = n ∧
      b.off' = c.off' + n ∧ b.len' = c.len' - n ∧ a.start = c.start ∧
      a.pos = min c.pos (c.start + n) ∧ b.off = max c.off (c.off' + n) ∧
      a.len + b.len = c.len := by
  have hw := h.wf
  have hu := h.nums
  simp only [RangeBuf.WF] at hw
  refine ⟨_, _, by simp only [RangeBuf.splitOff]; rw [if_pos (by omega)], ?_⟩
  refine ⟨⟨?_, h0, fun k hk => h.agree k (by simp only at hk; omega)⟩, ⟨?_, ?_, fun k hk => ?_⟩,
    rfl, rfl, rfl, rfl, rfl, rfl, ?_, ?_⟩
  · simp only [RangeBuf.WF]; omega
  · simp only [RangeBuf.WF]; omega
  · simp only; omega
  · simp only at hk ⊢
    have := h.agree (n + k) (by omega)
    rw [← Nat.add_assoc, ← Nat.add_assoc] at this
    exact this
  · simp only [RangeBuf.off]; omega
  · simp only [RangeBuf.len]; omega

/-- Moving the position of a chunk back for a retransmission from `lo` on. -/
theorem Good.expand {W : Bytes} {b : RangeBuf} (h : Good W b) {lo p : Nat} (hlo : lo ≤ b.maxOff)
    (hp : p = (if lo > b.off' ∧ lo ≤ b.maxOff then min b.pos (b.start + (lo - b.off'))
      else b.start)) :
    p ≤ b.pos ∧ Good W { b with pos := p } ∧
    RangeBuf.off { b with pos := p } = min b.off (max lo b.off') ∧
    RangeBuf.maxOff { b with pos := p } = b.maxOff ∧
    RangeBuf.len { b with pos := p } = b.len + (b.pos - p) := by
  have hw := h.wf
  have hn := h.nums
  simp only [RangeBuf.WF] at hw
  have hp1 : b.start ≤ p ∧ p ≤ b.pos ∧ p - b.start = min (b.pos - b.start) (lo - b.off') := by
    rw [hp]; split <;> omega
  have gp : Good W { b with pos := p } := h.setPos (by omega) (by omega)
  have np := gp.nums
  simp only at np
  refine ⟨hp1.2.1, gp, ?_, ?_, ?_⟩
  · rw [np.1]; omega
  · rw [np.2.2.1]; omega
  · rw [np.2.1]; omega

theorem pend_touch {boff boff' bmax lo hi top o : Nat} {P P' : Prop} (h1 : boff' ≤ boff)
    (h2 : boff ≤ bmax) (h3 : bmax ≤ top) (h4 : bmax ≤ hi)
    (hP : P' ↔ P ∨ (lo ≤ o ∧ o < hi ∧ bmax ≤ o ∧ o < top)) :
    ((min boff (max lo boff') ≤ o ∧ o < bmax) ∨ P') ↔
      (((boff ≤ o ∧ o < bmax) ∨ P) ∨ (lo ≤ o ∧ o < hi ∧ boff' ≤ o ∧ o < top)) := by
  rw [hP]
  constructor
  · rintro (h | h | h)
    · by_cases hl : boff ≤ o
      · exact .inl (.inl (by omega))
      · exact .inr (by omega)
    · exact .inl (.inr h)
    · exact .inr (by omega)
  · rintro ((h | h) | h)
    · exact .inl (by omega)
    · exact .inr (.inl h)
    · by_cases hl : o < bmax
      · exact .inl (by omega)
      · exact .inr (.inr (by omega))

theorem pend_split {boff boff' bmax lo hi top o : Nat} {P : Prop} (h1 : boff' ≤ boff)
    (h2 : boff ≤ bmax) (h3 : bmax ≤ top) (h4 : hi < bmax) (h5 : boff' < hi) (h6 : lo ≤ hi) :
    ((min (min boff hi) (max lo boff') ≤ o ∧ o < hi) ∨ (max boff hi ≤ o ∧ o < bmax) ∨ P) ↔
      (((boff ≤ o ∧ o < bmax) ∨ P) ∨ (lo ≤ o ∧ o < hi ∧ boff' ≤ o ∧ o < top)) := by
  constructor
  · rintro (h | h | h)
    · by_cases hl : boff ≤ o
      · exact .inl (.inl (by omega))
      · exact .inr (by omega)
    · exact .inl (.inl (by omega))
    · exact .inl (.inr h)
  · rintro ((h | h) | h)
    · by_cases hl : o < hi
      · exact .inl (by omega)
      · exact .inr (.inl (by omega))
    · exact .inr (.inr h)
    · exact .inl (by omega)

theorem Requeued.split {W : Bytes} {base top lo hi i pos r : Nat} {b x nb : RangeBuf}
    {t : List RangeBuf} (hch : Chain base (b :: t) top) (hg : ∀ c ∈ b :: t, Good W c)
    (gx : Good W x) (gn : Good W nb) (x1 : x.off' = b.off') (x2 : x.len' + nb.len' = b.len')
    (x3 : nb.off' = x.off' + x.len') (x4 : x.off = min (min b.off hi) (max lo b.off'))
    (x5 : x.maxOff = hi) (x6 : nb.off = max b.off hi) (x7 : nb.maxOff = b.maxOff)
    (x8 : x.len + nb.len = b.len + r) (h1 : hi < b.maxOff) (h2 : b.off' < hi) (h3 : lo ≤ hi)
    (x9 : nb.off' = hi) :
    Requeued W base top lo hi i pos (b :: t) (x :: nb :: t) (min pos i) r := by
  have hb := hch.1
  have hn := (hg b (by simp)).nums
  have htop := Chain.le hch.2
  have hm : b.maxOff ≤ top := by omega
  obtain ⟨-, -, -, n1, n2, -⟩ := hn
  refine ⟨⟨by omega, by omega, ?_⟩, ?_, ?_, by omega, ?_, by simp, ?_, ?_⟩
  · have : base + x.len' + nb.len' = base + b.len' := by omega
    rw [this]; exact hch.2
  · intro d hd
    simp only [List.mem_cons] at hd
    rcases hd with rfl | rfl | hd
    · exact gx
    · exact gn
    · exact hg d (by simp [hd])
  · simp only [lens_cons]; omega
  · intro _ d hd
    have : min pos i - i = 0 := by omega
    rw [this] at hd; simp at hd
  · intro o
    rw [pend_cons, pend_cons, pend_cons, x4, x5, x6, x7, ← hb]
    exact pend_split n1 n2 hm h1 h2 h3
  · intro E hE d hd
    have hEb := hE b (by simp)
    simp only [List.mem_cons] at hd
    rcases hd with rfl | rfl | hd
    · rw [x4, x1]; omega
    · rw [x6, x9]; omega
    · exact hE d (by simp [hd])

theorem Requeued.touch {W : Bytes} {base top lo hi i pos pos' r r' : Nat} {b x : RangeBuf}
    {t l' : List RangeBuf} (hch : Chain base (b :: t) top) (hg : ∀ c ∈ b :: t, Good W c)
    (gx : Good W x) (x1 : x.off' = b.off') (x2 : x.len' = b.len')
    (x4 : x.off = min b.off (max lo b.off')) (x5 : x.maxOff = b.maxOff)
    (x8 : x.len = b.len + r') (h1 : b.maxOff ≤ hi)
    (R : Requeued W (base + b.len') top lo hi (i + 1) (min pos i) t l' pos' r) :
    Requeued W base top lo hi i pos (b :: t) (x :: l') pos' (r' + r) := by
  have hb := hch.1
  have hn := (hg b (by simp)).nums
  have htop := Chain.le hch.2
  have hm : b.maxOff ≤ top := by omega
  obtain ⟨-, -, n0, n1, n2, -⟩ := hn
  have hpl := R.pos_le
  refine ⟨⟨by omega, by rw [x2]; exact R.chain⟩, ?_, ?_, by omega, ?_, ?_, ?_, ?_⟩
  · intro d hd; rcases List.mem_cons.mp hd with rfl | hd
    · exact gx
    · exact R.good d hd
  · simp only [lens_cons, R.lens, x8]; omega
  · intro _ d hd
    have : pos' - i = 0 := by omega
    rw [this] at hd; simp at hd
  · simp only [List.length_cons]; have := R.longer; omega
  · intro o
    rw [pend_cons, pend_cons, x4, x5, ← hb]
    refine pend_touch n1 n2 hm h1 ?_
    rw [R.pend o, n0, hb]
  · intro E hE d hd
    rcases List.mem_cons.mp hd with rfl | hd
    · have := hE b (by simp); rw [x4, x1]; omega
    · exact R.mark E (fun y hy => hE y (by simp [hy])) d hd

theorem retransmitLoop_spec {W : Bytes} {top lo hi : Nat} (hlh : lo ≤ hi) (l : List RangeBuf) :
    ∀ (base i pos buffered total : Nat), Chain base l top → (∀ c ∈ l, Good W c) →
    ∃ l' pos' r,
      SendBuf.retransmitLoop lo hi l.length l i pos buffered total =
        .ok (l', pos', buffered + r, total + r) ∧
      Requeued W base top lo hi i pos l l' pos' r := by
  induction l with
  | nil =>
    intro base i pos buffered total hch hg
    exact ⟨[], pos, 0, rfl, Requeued.stay hch hg (.inr rfl)⟩
  | cons b t ih =>
    intro base i pos buffered total hch hg
    have hb := hg b (by simp)
    have hn := hb.nums
    have hw := hb.wf
    have hbp := hb.pos
    simp only [RangeBuf.WF] at hw
    have h1 := hch.1
    have hgt : ∀ d ∈ t, Good W d := fun d hd => hg d (by simp [hd])
    have htop := Chain.le hch.2
    simp only [List.length_cons, SendBuf.retransmitLoop]
    by_cases c1 : b.off' ≥ hi
    · rw [if_pos c1]
      exact ⟨b :: t, pos, 0, rfl, Requeued.stay hch hg (.inl (by omega))⟩
    rw [if_neg c1]
    by_cases c2 : lo > b.maxOff
    · rw [if_pos c2]
      obtain ⟨l', pos', r, e, R⟩ := ih (base + b.len') (i + 1) pos buffered total hch.2 hgt
      rw [e]
      refine ⟨b :: l', pos', r, rfl, ⟨⟨h1, R.chain⟩, ?_, ?_, R.pos_le, ?_, ?_, ?_, ?_⟩⟩
      · intro d hd; rcases List.mem_cons.mp hd with rfl | hd
        · exact hb
        · exact R.good d hd
      · simp only [lens_cons, R.lens]; omega
      · intro hd d hd'
        by_cases hp : pos' - i = 0
        · rw [hp] at hd'; simp at hd'
        · obtain ⟨m, hm⟩ : ∃ m, pos' - i = m + 1 := ⟨pos' - i - 1, by omega⟩
          have hpl := R.pos_le
          rw [hm, List.take_succ_cons] at hd'
          obtain ⟨q, hq⟩ : ∃ q, pos - i = q + 1 := ⟨pos - i - 1, by omega⟩
          rw [hq, List.take_succ_cons] at hd
          rcases List.mem_cons.mp hd' with rfl | hd'
          · exact hd d (by simp)
          · refine R.done (fun x hx => hd x ?_) d ?_
            · have : q = pos - (i + 1) := by omega
              rw [this]; simp [hx]
            · have : m = pos' - (i + 1) := by omega
              rw [← this]; exact hd'
      · simp only [List.length_cons]; have := R.longer; omega
      · intro o
        rw [pend_cons, pend_cons, R.pend o]
        constructor
        · rintro (h | h | h)
          · exact .inl (.inl h)
          · exact .inl (.inr h)
          · exact .inr (by omega)
        · rintro ((h | h) | h)
          · exact .inl h
          · exact .inr (.inl h)
          · exact .inr (.inr (by omega))
      · intro E hE d hd
        rcases List.mem_cons.mp hd with rfl | hd
        · exact hE d (by simp)
        · exact R.mark E (fun x hx => hE x (by simp [hx])) d hd
    rw [if_neg c2]
    by_cases c3 : hi < b.maxOff
    · obtain ⟨a, nb, es, ga, gb, a1, a2, b1, b2, a3, a4, b3, b4⟩ :=
        hb.split (n := hi - b.off') (by omega) (by omega)
      rw [if_pos ⟨by omega, c3⟩, es]
      simp only [bind, Except.bind]
      have na := ga.nums
      have nbn := gb.nums
      have wa := ga.wf
      simp only [RangeBuf.WF] at wa
      have amax : a.maxOff = hi := by omega
      have aoff : a.off = min b.off hi := by omega
      have nboff : nb.off = max b.off hi := by omega
      have nbmax : nb.maxOff = b.maxOff := by omega
      obtain ⟨p, hp⟩ : ∃ p, p = (if lo > a.off' ∧ lo ≤ a.maxOff then
        min a.pos (a.start + (lo - a.off')) else a.start) := ⟨_, rfl⟩
      obtain ⟨x1, x2, x3, x4, x5⟩ := ga.expand (lo := lo) (by omega) hp
      rw [← hp, if_neg (by omega)]
      rw [retransmitLoop_stop (by simp; omega)]
      exact ⟨{ a with pos := p } :: nb :: t, min pos i, a.pos - p, rfl,
        Requeued.split hch hg x2 gb a1 (by simp only; omega) (by simp only; omega)
          (by rw [x3, aoff, a1]) (by rw [x4, amax]) nboff nbmax (by rw [x5]; omega) c3 (by omega)
          hlh (by omega)⟩
    · rw [if_neg (by omega)]
      simp only [bind, Except.bind]
      obtain ⟨p, hp⟩ : ∃ p, p = (if lo > b.off' ∧ lo ≤ b.maxOff then
        min b.pos (b.start + (lo - b.off')) else b.start) := ⟨_, rfl⟩
      obtain ⟨x1, x2, x3, x4, x5⟩ := hb.expand (lo := lo) (by omega) hp
      rw [← hp, if_neg (by omega)]
      obtain ⟨l', pos', r, e, R⟩ := ih (base + b.len') (i + 1) (min pos i) (buffered + (b.pos - p))
        (total + (b.pos - p)) hch.2 hgt
      rw [e]
      exact ⟨{ b with pos := p } :: l', pos', (b.pos - p) + r, by simp only [Nat.add_assoc],
        Requeued.touch hch hg x2 rfl rfl x3 x4 x5 (by omega) R⟩

/-! ### Dropping acknowledged chunks -/

theorem drop_spec {W : Bytes} {top A : Nat} (l : List RangeBuf) :
    ∀ base, Chain base l top → (∀ c ∈ l, Good W c) → ∀ k,
    k = (l.takeWhile (SendBuf.droppable A)).length →
    ∃ base', Chain base' (l.drop k) top ∧ base ≤ base' ∧ base' ≤ max base A ∧ k ≤ l.length ∧
      lens (l.take k) + lens (l.drop k) = lens l ∧
      (∀ o, Pend l o → A ≤ o → Pend (l.drop k) o) := by
  induction l with
  | nil =>
    intro base h hg k hk
    subst hk
    exact ⟨base, h, by omega, by omega, by simp, by simp, fun o h _ => h⟩
  | cons b t ih =>
    intro base h hg k hk
    have hb := (hg b (by simp)).nums
    have h1 := h.1
    rw [List.takeWhile_cons] at hk
    split at hk
    · rename_i hd
      simp only [List.length_cons] at hk
      obtain ⟨base', i1, i2, i3, i4, i5, i6⟩ := ih _ h.2 (fun d hd => hg d (by simp [hd])) _ rfl
      subst hk
      simp [SendBuf.droppable] at hd
      refine ⟨base', i1, by omega, by omega, by simp only [List.length_cons]; omega, ?_, ?_⟩
      · simp only [List.take_succ_cons, List.drop_succ_cons, lens_cons]; omega
      · intro o ho hA
        rcases (pend_cons _ _ _).mp ho with h | h
        · omega
        · exact i6 o h hA
    · subst hk
      exact ⟨base, h, by omega, by omega, by simp, by simp, fun o h _ => h⟩

/-! ### Appending -/

theorem chunks_spec {n : Nat} (hn : 0 < n) (fuel : Nat) (d : Bytes) (h : d.length ≤ fuel) :
    (SendBuf.chunks n fuel d).flatten = d ∧ ∀ c ∈ SendBuf.chunks n fuel d, 0 < c.length := by
  induction fuel generalizing d with
  | zero =>
    cases d with
    | nil => simp [SendBuf.chunks]
    | cons b d => simp at h
  | succ fuel ih =>
    cases d with
    | nil => simp [SendBuf.chunks]
    | cons b d =>
      have := ih ((b :: d).drop n) (by simp only [List.length_drop]; omega)
      simp only [SendBuf.chunks, List.flatten_cons, this.1, List.take_append_drop, true_and]
      intro c hc
      rcases List.mem_cons.mp hc with rfl | hc
      · simp only [List.length_take, List.length_cons]; omega
      · exact this.2 c hc

/-- What appending chunks does to the queue. -/
theorem appendChunks_spec {fin : Bool} (cs : List Bytes) :
    ∀ (s : SendBuf) (W : Bytes) (base : Nat), (∀ c ∈ cs, 0 < c.length) →
    Chain base s.data s.off → (∀ c ∈ s.data, Good W c) → s.off = W.length →
    ∃ s' ext, SendBuf.appendChunks fin s cs.flatten.length cs = .ok s' ∧
      s' = { s with data := s.data ++ ext, off := s.off + cs.flatten.length,
                    bufferedBytes := s.bufferedBytes + cs.flatten.length } ∧
      Chain base s'.data s'.off ∧ (∀ c ∈ s'.data, Good (W ++ cs.flatten) c) ∧
      lens ext = cs.flatten.length ∧ (∀ c ∈ ext, c.off = c.off') ∧
      (∀ o, Pend ext o ↔ s.off ≤ o ∧ o < s.off + cs.flatten.length) := by
  induction cs with
  | nil =>
    intro s W base _ hch hg hW
    refine ⟨s, [], by simp [SendBuf.appendChunks], by simp, hch, by simpa using hg, by simp,
      by simp, by intro o; simp⟩
  | cons c cs ih =>
    intro s W base hpos hch hg hW
    have hc := hpos c (by simp)
    have hgc := Good.mk' (W := W) hc (cs.flatten.length + c.length == c.length && fin)
    obtain ⟨s', ext, e, es, i1, i2, i3, i4, i5⟩ := ih
      { s with data := s.data ++ [RangeBuf.mk' c s.off (cs.flatten.length + c.length == c.length && fin)]
               off := s.off + c.length
               bufferedBytes := s.bufferedBytes + c.length } (W ++ c) base
      (fun d hd => hpos d (by simp [hd]))
      (hch.append (by simp [Chain, RangeBuf.mk']))
      (by
        intro d hd
        simp only [List.mem_append, List.mem_singleton] at hd
        rcases hd with hd | rfl
        · exact (hg d hd).mono c
        · rw [hW]; exact hgc)
      (by simp [hW])
    refine ⟨s', RangeBuf.mk' c s.off (cs.flatten.length + c.length == c.length && fin) :: ext,
      ?_, ?_, i1, ?_, ?_, ?_, ?_⟩
    · simp only [List.flatten_cons, List.length_append, SendBuf.appendChunks]
      rw [if_neg (by omega)]
      have a1 : c.length + cs.flatten.length - c.length = cs.flatten.length := by omega
      have a2 : c.length + cs.flatten.length = cs.flatten.length + c.length := by omega
      rw [a1, a2]; exact e
    · rw [es]; simp [Nat.add_assoc]
    · simpa using i2
    · simp only [lens_cons, RangeBuf.len_mk', i3, List.flatten_cons, List.length_append]
    · intro d hd; rcases List.mem_cons.mp hd with rfl | hd
      · simp [RangeBuf.mk', RangeBuf.off]
      · exact i4 d hd
    · intro o
      rw [pend_cons, i5]
      simp only [RangeBuf.off_mk', RangeBuf.maxOff, RangeBuf.len_mk', List.flatten_cons,
        List.length_append]
      omega

end Stream
end Verif
