import Verif.Stream.RecvBuf

/-! Lemmas about `RecvBuf`: the chunk map refines a partial map from stream
offsets to bytes. -/

namespace Verif.Stream.RecvBuf
open Verif

/-- The byte buffered for a stream offset. -/
def lookup (D : List Entry) (o : Nat) : Option UInt8 := D.findSome? (fun e => e.2.byteAt o)

/-- Invariant of the chunk map: keys are end offsets, chunks are ordered and
disjoint, and nothing lies below the read offset. -/
def DInv (off : Nat) (D : List Entry) : Prop :=
  (∀ e ∈ D, e.1 = e.2.maxOff ∧ e.2.WF ∧ off ≤ e.2.off) ∧
  D.Pairwise (fun x y => x.1 < y.1 ∧ x.2.maxOff ≤ y.2.off)

theorem dinv_nil (off : Nat) : DInv off [] := by simp [DInv]

theorem dinv_cons {off : Nat} {e : Entry} {t : List Entry} :
    DInv off (e :: t) ↔ (e.1 = e.2.maxOff ∧ e.2.WF ∧ off ≤ e.2.off) ∧
      (∀ y ∈ t, e.1 < y.1 ∧ e.2.maxOff ≤ y.2.off) ∧ DInv off t := by
  simp only [DInv, List.mem_cons, forall_eq_or_imp, List.pairwise_cons]
  constructor
  · rintro ⟨⟨h1, h2⟩, h3, h4⟩; exact ⟨h1, h3, h2, h4⟩
  · rintro ⟨h1, h3, h2, h4⟩; exact ⟨⟨h1, h2⟩, h3, h4⟩

theorem DInv.mono {off off' : Nat} {D : List Entry} (h : DInv off D)
    (h' : ∀ e ∈ D, off' ≤ e.2.off) : DInv off' D :=
  ⟨fun e he => ⟨(h.1 e he).1, (h.1 e he).2.1, h' e he⟩, h.2⟩

theorem maxOff_ge (b : RangeBuf) : b.off ≤ b.maxOff := by simp [RangeBuf.maxOff]

theorem lookup_cons (e : Entry) (t : List Entry) (o : Nat) :
    lookup (e :: t) o = (e.2.byteAt o).or (lookup t o) := by
  simp only [lookup, List.findSome?_cons]
  cases e.2.byteAt o <;> simp

theorem lookup_iff {off : Nat} {D : List Entry} (h : DInv off D) (o : Nat) (x : UInt8) :
    lookup D o = some x ↔ ∃ e ∈ D, e.2.byteAt o = some x := by
  induction D with
  | nil => simp [lookup]
  | cons e t ih =>
    rw [dinv_cons] at h
    obtain ⟨⟨h1, h2, h3⟩, h4, h5⟩ := h
    rw [lookup_cons]
    simp only [List.mem_cons, exists_eq_or_imp, ← ih h5]
    cases hb : e.2.byteAt o with
    | none => simp
    | some y =>
      simp only [Option.some_or, Option.some.injEq]
      constructor
      · intro h; exact .inl h
      · rintro (h | h)
        · exact h
        · exfalso
          obtain ⟨e', he', hx⟩ := (ih h5).mp h
          have a1 := RangeBuf.byteAt_lt h2 hb
          have a2 := RangeBuf.byteAt_lt (h5.1 e' he').2.1 hx
          have := (h4 e' he').2
          omega

theorem lookup_none {off : Nat} {D : List Entry} (h : DInv off D) (o : Nat) :
    lookup D o = none ↔ ∀ e ∈ D, e.2.byteAt o = none := by
  simp [lookup]

/-! ### Insertion -/

theorem mapInsert_mem (k : Nat) (b : RangeBuf) (D : List Entry)
    (hs : D.Pairwise (fun x y => x.1 < y.1)) (x : Entry) :
    x ∈ mapInsert k b D ↔ x = (k, b) ∨ (x ∈ D ∧ x.1 ≠ k) := by
  induction D with
  | nil => simp [mapInsert]
  | cons e t ih =>
    obtain ⟨ek, eb⟩ := e
    rw [List.pairwise_cons] at hs
    simp only [mapInsert]
    split
    · rename_i hk
      simp only [List.mem_cons]
      constructor
      · rintro (h | h | h)
        · exact .inl h
        · exact .inr ⟨.inl h, by rw [h]; simp only; omega⟩
        · have := hs.1 x h; simp only at this
          exact .inr ⟨.inr h, by omega⟩
      · rintro (h | ⟨h | h, _⟩)
        · exact .inl h
        · exact .inr (.inl h)
        · exact .inr (.inr h)
    · split
      · rename_i hk hk2
        simp only [List.mem_cons]
        constructor
        · rintro (h | h)
          · exact .inl h
          · have := hs.1 x h; simp only at this
            exact .inr ⟨.inr h, by omega⟩
        · rintro (h | ⟨h | h, h2⟩)
          · exact .inl h
          · rw [h] at h2; simp only at h2; omega
          · exact .inr h
      · rename_i hk hk2
        simp only [List.mem_cons, ih hs.2]
        constructor
        · rintro (h | h | ⟨h, h2⟩)
          · exact .inr ⟨.inl h, by rw [h]; simp only; omega⟩
          · exact .inl h
          · exact .inr ⟨.inr h, h2⟩
        · rintro (h | ⟨h | h, h2⟩)
          · exact .inr (.inl h)
          · exact .inl h
          · exact .inr (.inr ⟨h, h2⟩)

/-- How existing chunks relate to a chunk about to be inserted. -/
def Fits (b : RangeBuf) (e : Entry) : Prop :=
  (e.1 < b.maxOff ∧ e.2.maxOff ≤ b.off) ∨ (e.1 = b.maxOff ∧ e.2.len = 0) ∨
    (b.maxOff < e.1 ∧ b.maxOff ≤ e.2.off)

theorem mapInsert_inv {off : Nat} {D : List Entry} (h : DInv off D) {b : RangeBuf} (hb : b.WF)
    (hoff : off ≤ b.off) (hf : ∀ e ∈ D, Fits b e) : DInv off (mapInsert b.maxOff b D) := by
  have hsort : D.Pairwise (fun x y => x.1 < y.1) := h.2.imp (fun h => h.1)
  refine ⟨?_, ?_⟩
  · intro x hx
    rw [mapInsert_mem _ _ _ hsort] at hx
    rcases hx with rfl | hx
    · exact ⟨rfl, hb, hoff⟩
    · exact h.1 x hx.1
  · induction D with
    | nil => simp [mapInsert]
    | cons e t ih =>
      obtain ⟨ek, eb⟩ := e
      rw [dinv_cons] at h
      obtain ⟨⟨h1, h2, h3⟩, h4, h5⟩ := h
      simp only at h1 h2 h3 h4
      rw [List.pairwise_cons] at hsort
      have hfe := hf (ek, eb) (by simp)
      have hft : ∀ e ∈ t, Fits b e := fun e he => hf e (by simp [he])
      simp only [Fits] at hfe
      simp only [mapInsert]
      split
      · rename_i hk
        rw [List.pairwise_cons]
        refine ⟨?_, by rw [List.pairwise_cons]; exact ⟨h4, h5.2⟩⟩
        intro y hy
        simp only [List.mem_cons] at hy
        rcases hy with rfl | hy
        · simp only; omega
        · have := h4 y hy
          have := maxOff_ge eb
          simp only; omega
      · split
        · rename_i hk hk2
          rw [List.pairwise_cons]
          refine ⟨?_, h5.2⟩
          intro y hy
          have := h4 y hy
          simp only; omega
        · rename_i hk hk2
          rw [List.pairwise_cons]
          refine ⟨?_, ih h5 hft hsort.2⟩
          intro y hy
          rw [mapInsert_mem _ _ _ hsort.2] at hy
          rcases hy with rfl | hy
          · simp only; omega
          · exact h4 y hy.1

theorem mapInsert_lookup {off : Nat} {D : List Entry} (h : DInv off D) {b : RangeBuf} (hb : b.WF)
    (hoff : off ≤ b.off) (hf : ∀ e ∈ D, Fits b e) (o : Nat) :
    lookup (mapInsert b.maxOff b D) o = (lookup D o).or (b.byteAt o) := by
  have hsort : D.Pairwise (fun x y => x.1 < y.1) := h.2.imp (fun h => h.1)
  have hi := mapInsert_inv h hb hoff hf
  have key : ∀ x, lookup (mapInsert b.maxOff b D) o = some x ↔
      (lookup D o = some x ∨ b.byteAt o = some x) := by
    intro x
    rw [lookup_iff hi, lookup_iff h]
    constructor
    · rintro ⟨e, he, hx⟩
      rw [mapInsert_mem _ _ _ hsort] at he
      rcases he with rfl | he
      · exact .inr hx
      · exact .inl ⟨e, he.1, hx⟩
    · rintro (⟨e, he, hx⟩ | hx)
      · refine ⟨e, (mapInsert_mem _ _ _ hsort e).mpr (.inr ⟨he, ?_⟩), hx⟩
        have a1 := RangeBuf.byteAt_lt (h.1 e he).2.1 hx
        have a2 := hf e he
        have a3 := (h.1 e he).1
        simp only [Fits, RangeBuf.maxOff] at *
        omega
      · exact ⟨(b.maxOff, b), (mapInsert_mem _ _ _ hsort _).mpr (.inl rfl), hx⟩
  -- both cannot hold at once
  have hdis : ∀ x y, lookup D o = some x → b.byteAt o = some y → False := by
    intro x y hx hy
    obtain ⟨e, he, hx⟩ := (lookup_iff h o x).mp hx
    have a1 := RangeBuf.byteAt_lt (h.1 e he).2.1 hx
    have a2 := RangeBuf.byteAt_lt hb hy
    have a3 := hf e he
    have a4 := (h.1 e he).1
    simp only [Fits, RangeBuf.maxOff] at *
    omega
  cases hl : lookup D o with
  | some x => simpa using (key x).mpr (.inl hl)
  | none =>
    simp only [Option.none_or]
    cases hb2 : b.byteAt o with
    | some y => exact (key y).mpr (.inr hb2)
    | none =>
      cases hl2 : lookup (mapInsert b.maxOff b D) o with
      | none => rfl
      | some z =>
        rcases (key z).mp hl2 with h | h
        · simp [hl] at h
        · simp [hb2] at h

/-! ### The overlap loop -/

/-- A chunk is a piece of another chunk. -/
def Piece (b buf : RangeBuf) : Prop :=
  b.WF ∧ b.pos = b.start ∧ buf.off ≤ b.off ∧ b.maxOff ≤ buf.maxOff ∧
    ∀ o, b.off ≤ o → o < b.maxOff → b.byteAt o = buf.byteAt o

theorem Piece.refl {b : RangeBuf} (h : b.WF) (hp : b.pos = b.start) : Piece b b :=
  ⟨h, hp, Nat.le_refl _, Nat.le_refl _, fun _ _ _ => rfl⟩

theorem Piece.trans {a b c : RangeBuf} (h1 : Piece a b) (h2 : Piece b c) : Piece a c := by
  obtain ⟨a1, a2, a3, a4, a5⟩ := h1
  obtain ⟨b1, b2, b3, b4, b5⟩ := h2
  exact ⟨a1, a2, by omega, by omega, fun o h1 h2 => by rw [a5 o h1 h2, b5 o (by omega) (by omega)]⟩

/-- Every offset in `[a, b)` is covered by a chunk. -/
def Covered (D : List Entry) (a b : Nat) : Prop :=
  ∀ o, a ≤ o → o < b → ∃ e ∈ D, e.2.off ≤ o ∧ o < e.2.maxOff

/-- Outcome of the overlap loop for a chunk `buf` against chunks `rest`. -/
def OverlapOk (rest : List Entry) (buf : RangeBuf) (tmp : List RangeBuf) : Overlap → Prop
  | .panic => False
  | .skip tmp' => tmp' = tmp ∧ Covered rest buf.off buf.maxOff ∧ ∃ e ∈ rest, buf.maxOff ≤ e.1
  | .keep b tmp' =>
    Piece b buf ∧ Covered rest buf.off b.off ∧
    (∀ e ∈ rest, e.2.maxOff ≤ b.off ∨ b.maxOff ≤ e.2.off) ∧
    (b.len = 0 → buf.len = 0 ∧ ∀ e ∈ rest, b.off < e.2.off) ∧
    ((tmp' = tmp ∧ b.maxOff = buf.maxOff) ∨
      (∃ r, tmp' = tmp ++ [r] ∧ Piece r buf ∧ r.off = b.maxOff ∧ r.maxOff = buf.maxOff ∧
        r.len ≠ 0 ∧ ∃ e ∈ rest, e.2.off = r.off ∧ buf.off < e.2.off))

theorem Covered.cons {D : List Entry} {a b : Nat} (h : Covered D a b) (e : Entry) :
    Covered (e :: D) a b := by
  intro o h1 h2
  obtain ⟨x, hx, h3⟩ := h o h1 h2
  exact ⟨x, by simp [hx], h3⟩

theorem len_zero_iff (b : RangeBuf) : b.len = 0 ↔ b.maxOff = b.off := by
  simp [RangeBuf.maxOff]

/-- Once the piece ends at or before all remaining chunks, the loop leaves it. -/
theorem overlapLoop_done {off : Nat} (rest : List Entry) (hD : DInv off rest) (buf : RangeBuf)
    (tmp : List RangeBuf) (hlen : buf.len ≠ 0) (h : ∀ e ∈ rest, buf.maxOff ≤ e.2.off) :
    overlapLoop rest buf tmp = .keep buf tmp := by
  induction rest with
  | nil => rfl
  | cons e t ih =>
    obtain ⟨k, b⟩ := e
    rw [dinv_cons] at hD
    obtain ⟨⟨h1, h2, h3⟩, h4, h5⟩ := hD
    have hb := h (k, b) (by simp)
    simp only at h1 h2 h3 h4 hb
    have h6 := maxOff_ge b
    have h7 : buf.off < buf.maxOff := by simp only [RangeBuf.maxOff]; omega
    simp only [overlapLoop]
    split
    · rfl
    · rename_i hgt
      rw [if_neg (by omega), if_neg (by omega)]
      simp only
      rw [if_neg (by omega)]
      exact ih h5 (fun e he => h e (by simp [he]))

theorem overlapLoop_spec {off : Nat} (rest : List Entry) (hD : DInv off rest) (buf : RangeBuf)
    (tmp : List RangeBuf) (hwf : buf.WF) (hp : buf.pos = buf.start)
    (hkeys : ∀ e ∈ rest, buf.off ≤ e.1) :
    OverlapOk rest buf tmp (overlapLoop rest buf tmp) := by
  induction rest generalizing buf with
  | nil =>
    simp only [overlapLoop, OverlapOk]
    refine ⟨Piece.refl hwf hp, fun o h1 h2 => by omega, by simp, ?_, .inl (by simp)⟩
    intro h; exact ⟨h, by simp⟩
  | cons e t ih =>
    obtain ⟨k, b⟩ := e
    rw [dinv_cons] at hD
    obtain ⟨⟨h1, h2, h3⟩, h4, h5⟩ := hD
    simp only at h1 h2 h3 h4
    have hk := hkeys (k, b) (by simp)
    have hkt : ∀ e ∈ t, buf.off ≤ e.1 := fun e he => hkeys e (by simp [he])
    simp only at hk
    have hbge := maxOff_ge b
    have hge := maxOff_ge buf
    simp only [overlapLoop]
    by_cases c1 : b.off > buf.maxOff
    · -- past the current buffer
      rw [if_pos c1]
      simp only [OverlapOk]
      have hall : ∀ e ∈ (k, b) :: t, buf.maxOff < e.2.off := by
        intro e he
        simp only [List.mem_cons] at he
        rcases he with rfl | he
        · exact c1
        · have := (h4 e he).2; omega
      refine ⟨Piece.refl hwf hp, fun o h1 h2 => by omega, ?_, ?_, .inl (by simp)⟩
      · intro e he; have := hall e he; omega
      · intro h; exact ⟨h, fun e he => by have := hall e he; omega⟩
    rw [if_neg c1]
    by_cases c2 : buf.off ≥ b.off ∧ buf.maxOff ≤ b.maxOff
    · -- fully contained
      rw [if_pos c2]
      simp only [OverlapOk]
      refine ⟨trivial, fun o h1 h2 => ⟨(k, b), by simp, ?_, ?_⟩, (k, b), by simp, ?_⟩
      · simp only; omega
      · simp only; omega
      · simp only; omega
    rw [if_neg c2]
    by_cases c3 : buf.off ≥ b.off ∧ buf.off < b.maxOff
    · -- the start overlaps: trim
      rw [if_pos c3]
      have hle : b.maxOff - buf.off ≤ buf.len := by
        simp only [RangeBuf.maxOff] at *; omega
      obtain ⟨l, r, hs, hlw, hrw, hlp, hrp, hlo, hlm, hro, hrm, hll, hrl, hlf, hrf, hlb, hrb, hla, hra⟩ :=
        RangeBuf.splitOff_spec hwf hp hle
      simp only [hs, Option.map_some]
      rw [if_neg (by omega)]
      have hroff : r.off = b.maxOff := by omega
      have hrne : r.len ≠ 0 := by rw [ne_eq, len_zero_iff]; omega
      have hpiece : Piece r buf := ⟨hrw, hrp, by omega, by omega, fun o h1 h2 => hra o (by omega)⟩
      have hih := ih h5 r hrw hrp (fun e he => by have := (h4 e he).1; omega)
      revert hih
      have hcov : ∀ m, Covered t r.off m → Covered ((k, b) :: t) buf.off m := by
        intro m hc o ho1 ho2
        by_cases ho : o < b.maxOff
        · exact ⟨(k, b), by simp, by simp only; omega, ho⟩
        · obtain ⟨x, hx, hy⟩ := hc o (by omega) ho2
          exact ⟨x, by simp [hx], hy⟩
      cases overlapLoop t r tmp with
      | panic => exact id
      | skip tmp' =>
        simp only [OverlapOk]
        rintro ⟨g1, g2, e, ge, ge2⟩
        refine ⟨g1, ?_, e, by simp [ge], by omega⟩
        have := hcov _ g2
        rwa [hrm] at this
      | keep b' tmp' =>
        simp only [OverlapOk]
        rintro ⟨g1, g2, g3, g4, g5⟩
        have hb'ge := g1.2.2.1
        refine ⟨g1.trans hpiece, hcov _ g2, ?_, ?_, ?_⟩
        · intro e he
          simp only [List.mem_cons] at he
          rcases he with rfl | he
          · left; simp only; omega
          · exact g3 e he
        · intro hz; exact absurd (g4 hz).1 hrne
        · rcases g5 with ⟨q1, q2⟩ | ⟨x, q1, q2, q3, q4, q5, e, q6, q7, q8⟩
          · exact .inl ⟨q1, by omega⟩
          · exact .inr ⟨x, q1, q2.trans hpiece, q3, by omega, q5, e, by simp [q6], q7, by omega⟩
    rw [if_neg c3]
    simp only
    by_cases c4 : buf.off < b.off ∧ buf.maxOff > b.off
    · -- the end overlaps: split
      rw [if_pos c4]
      have hle : b.off - buf.off ≤ buf.len := by
        simp only [RangeBuf.maxOff] at *; omega
      obtain ⟨l, r, hs, hlw, hrw, hlp, hrp, hlo, hlm, hro, hrm, hll, hrl, hlf, hrf, hlb, hrb, hla, hra⟩ :=
        RangeBuf.splitOff_spec hwf hp hle
      simp only [hs]
      have hlne : l.len ≠ 0 := by omega
      rw [overlapLoop_done t h5 l _ hlne (fun e he => by have := (h4 e he).2; omega)]
      simp only [OverlapOk]
      refine ⟨⟨hlw, hlp, by omega, by omega, fun o h1 h2 => hla o (by omega)⟩,
        fun o h1 h2 => by omega, ?_, fun h => absurd h hlne, .inr ⟨r, rfl, ?_, by omega, hrm, ?_,
          (k, b), by simp, by simp only; omega, by simp only; omega⟩⟩
      · intro e he
        simp only [List.mem_cons] at he
        rcases he with rfl | he
        · right; simp only; omega
        · right; have := (h4 e he).2; omega
      · exact ⟨hrw, hrp, by omega, by omega, fun o h1 h2 => hra o (by omega)⟩
      · rw [ne_eq, len_zero_iff]; omega
    · -- adjacent
      rw [if_neg c4]
      have hih := ih h5 buf hwf hp hkt
      revert hih
      have hb0 : b.maxOff ≤ buf.off ∨ buf.maxOff ≤ b.off := by omega
      cases overlapLoop t buf tmp with
      | panic => exact id
      | skip tmp' =>
        simp only [OverlapOk]
        rintro ⟨g1, g2, e, ge, ge2⟩
        exact ⟨g1, g2.cons _, e, by simp [ge], ge2⟩
      | keep b' tmp' =>
        simp only [OverlapOk]
        rintro ⟨g1, g2, g3, g4, g5⟩
        obtain ⟨p1, p2, p3, p4, p5⟩ := g1
        refine ⟨⟨p1, p2, p3, p4, p5⟩, g2.cons _, ?_, ?_, ?_⟩
        · intro e he
          simp only [List.mem_cons] at he
          rcases he with rfl | he
          · simp only; omega
          · exact g3 e he
        · intro hz
          obtain ⟨z1, z2⟩ := g4 hz
          refine ⟨z1, ?_⟩
          intro e he
          simp only [List.mem_cons] at he
          rcases he with rfl | he
          · rw [len_zero_iff] at z1 hz; simp only; omega
          · exact z2 e he
        · rcases g5 with g5 | ⟨x, q1, q2, q3, q4, q5, e, q6, q7⟩
          · exact .inl g5
          · exact .inr ⟨x, q1, q2, q3, q4, q5, e, by simp [q6], q7⟩

/-! ### The queue loop -/

theorem filter_length_lt {α : Type} (l : List α) (p q : α → Bool) (himp : ∀ x ∈ l, p x → q x)
    (hx : ∃ x ∈ l, q x ∧ ¬ p x) : (l.filter p).length < (l.filter q).length := by
  induction l with
  | nil => simp at hx
  | cons a t ih =>
    have hmono : (t.filter p).length ≤ (t.filter q).length := by
      rw [← List.countP_eq_length_filter, ← List.countP_eq_length_filter]
      exact List.countP_mono_left (fun x hx => himp x (by simp [hx]))
    have ha := himp a (by simp)
    obtain ⟨x, hx, hq, hp⟩ := hx
    simp only [List.mem_cons] at hx
    rcases hx with rfl | hx
    · simp [List.filter_cons, hq, hp]; omega
    · have := ih (fun x hx => himp x (by simp [hx])) ⟨x, hx, hq, hp⟩
      simp only [List.filter_cons]
      by_cases h1 : p a
      · simp [h1, ha h1, this]
      · by_cases h2 : q a <;> simp [h1, h2] <;> omega

theorem mapInsert_filter_le (k : Nat) (b : RangeBuf) (D : List Entry) (p : Entry → Bool)
    (hb : p (k, b) = false) : ((mapInsert k b D).filter p).length ≤ (D.filter p).length := by
  induction D with
  | nil => simp [mapInsert, hb]
  | cons e t ih =>
    obtain ⟨ek, eb⟩ := e
    simp only [mapInsert]
    split
    · simp [List.filter_cons, hb]
    · split
      · rename_i h1 h2
        by_cases hpe : p (ek, eb) = true <;> simp [List.filter_cons, hb, hpe]
      · by_cases hpe : p (ek, eb) = true <;> simp [List.filter_cons, hpe] <;> omega

theorem DInv.filter {off : Nat} {D : List Entry} (h : DInv off D) (p : Entry → Bool) :
    DInv off (D.filter p) :=
  ⟨fun e he => h.1 e (List.mem_filter.mp he).1, h.2.sublist List.filter_sublist⟩

/-- Effect of the queue loop on a buffer that stores data. -/
theorem tmpLoop_spec (fuel : Nat) (r : RecvBuf) (buf : RangeBuf) (hD : DInv r.off r.data)
    (hlen : ∀ e ∈ r.data, e.1 ≤ r.len) (hdr : r.drain = false) (hwf : buf.WF)
    (hp : buf.pos = buf.start)
    (hoff : r.off < buf.maxOff ∨ (buf.len = 0 ∧ r.off ≤ buf.off))
    (hfuel : (r.data.filter (fun e => decide (buf.off < e.2.off))).length < fuel) :
    ∃ D', tmpLoop fuel r [buf] = some { r with len := max r.len buf.maxOff, data := D' } ∧
      DInv r.off D' ∧ (∀ e ∈ D', e.1 ≤ max r.len buf.maxOff) ∧
      (∀ o, r.off ≤ o → lookup D' o = (lookup r.data o).or (buf.byteAt o)) ∧
      (∀ e ∈ D', e.2.len = 0 → e ∈ r.data ∨ (buf.len = 0 ∧ e.1 = buf.maxOff)) ∧
      (r.data = [] → ∃ b, D' = [(buf.maxOff, b)] ∧ b.off = max r.off buf.off ∧ b.maxOff = buf.maxOff) := by
  induction fuel generalizing r buf with
  | zero => omega
  | succ fuel ih =>
    -- trimming below the read offset
    obtain ⟨buf1, ht, hpc, ho1, hm1, hl1, hb1⟩ : ∃ b1,
        (if r.off > buf.off then (buf.splitOff (r.off - buf.off)).map (·.2) else some buf) = some b1 ∧
        Piece b1 buf ∧ b1.off = max r.off buf.off ∧ b1.maxOff = buf.maxOff ∧
        (b1.len = 0 → buf.len = 0) ∧ ∀ o, r.off ≤ o → b1.byteAt o = buf.byteAt o := by
      by_cases hc : r.off > buf.off
      · rw [if_pos hc]
        have hle : r.off - buf.off ≤ buf.len := by
          simp only [RangeBuf.maxOff] at hoff; omega
        obtain ⟨l, r', hs, hlw, hrw, hlp, hrp, hlo, hlm, hro, hrm, hll, hrl, hlf, hrf, hlb, hrb, hla, hra⟩ :=
          RangeBuf.splitOff_spec hwf hp hle
        refine ⟨r', by simp [hs], ⟨hrw, hrp, by omega, by omega, fun o h1 h2 => hra o (by omega)⟩,
          by omega, hrm, ?_, fun o ho => hra o (by omega)⟩
        intro hz
        simp only [RangeBuf.maxOff] at hoff; omega
      · rw [if_neg hc]
        exact ⟨buf, rfl, Piece.refl hwf hp, by omega, rfl, id, fun _ _ => rfl⟩
    have hw1 := hpc.1
    have hp1 := hpc.2.1
    have hge1 := maxOff_ge buf1
    simp only [tmpLoop, ht]
    -- outcome of the overlap check, against all of the data
    have hov : ∀ out, out = (if buf1.off < r.len ∨ buf1.isEmpty = true then
          overlapLoop (r.data.filter (fun e => decide (buf1.off ≤ e.1))) buf1 []
        else Overlap.keep buf1 []) →
        (∃ e ∈ r.data, out = .skip [] ∧ Covered r.data buf1.off buf1.maxOff ∧ buf1.maxOff ≤ e.1) ∨
        (∃ b tmp', out = .keep b tmp' ∧ Piece b buf1 ∧ Covered r.data buf1.off b.off ∧
          (∀ e ∈ r.data, Fits b e) ∧ (b.len = 0 → buf1.len = 0) ∧
          ((tmp' = [] ∧ b.maxOff = buf1.maxOff) ∨
            (∃ x, tmp' = [x] ∧ Piece x buf1 ∧ x.off = b.maxOff ∧ x.maxOff = buf1.maxOff ∧
              x.len ≠ 0 ∧ ∃ e ∈ r.data, e.2.off = x.off ∧ buf1.off < e.2.off))) := by
      intro out hout
      by_cases hc : buf1.off < r.len ∨ buf1.isEmpty = true
      · rw [if_pos hc] at hout
        have hspec := overlapLoop_spec (r.data.filter (fun e => decide (buf1.off ≤ e.1)))
          (hD.filter _) buf1 [] hw1 hp1 (by
            intro e he; simpa using (List.mem_filter.mp he).2)
        rw [← hout] at hspec
        have hsub : ∀ e ∈ r.data.filter (fun e => decide (buf1.off ≤ e.1)), e ∈ r.data :=
          fun e he => (List.mem_filter.mp he).1
        have hcov : ∀ a b, Covered (r.data.filter (fun e => decide (buf1.off ≤ e.1))) a b →
            Covered r.data a b := by
          intro a b h o h1 h2
          obtain ⟨e, he, h3⟩ := h o h1 h2
          exact ⟨e, hsub e he, h3⟩
        cases out with
        | panic => exact absurd hspec (by simp [OverlapOk])
        | skip tmp' =>
          simp only [OverlapOk] at hspec
          obtain ⟨rfl, g2, e, ge, ge2⟩ := hspec
          exact .inl ⟨e, hsub e ge, rfl, hcov _ _ g2, ge2⟩
        | keep b tmp' =>
          simp only [OverlapOk] at hspec
          obtain ⟨g1, g2, g3, g4, g5⟩ := hspec
          refine .inr ⟨b, tmp', rfl, g1, hcov _ _ g2, ?_, fun h => (g4 h).1, ?_⟩
          · intro e he
            have hek := hD.1 e he
            have hbge := maxOff_ge b
            have hege := maxOff_ge e.2
            have hbo := g1.2.2.1
            by_cases hk : buf1.off ≤ e.1
            · have hin : e ∈ r.data.filter (fun e => decide (buf1.off ≤ e.1)) :=
                List.mem_filter.mpr ⟨he, by simpa using hk⟩
              have h3 := g3 e hin
              by_cases hz : b.len = 0
              · have h4 := (g4 hz).2 e hin
                rw [len_zero_iff] at hz
                simp only [Fits]; omega
              · rw [len_zero_iff] at hz
                simp only [Fits, len_zero_iff]; omega
            · simp only [Fits]; omega
          · rcases g5 with ⟨rfl, g5⟩ | ⟨x, hx, q2, q3, q4, q5, e, q6, q7⟩
            · exact .inl ⟨rfl, g5⟩
            · exact .inr ⟨x, by simpa using hx, q2, q3, q4, q5, e, hsub e q6, q7⟩
      · rw [if_neg hc] at hout
        simp only [not_or, RangeBuf.isEmpty, beq_iff_eq] at hc
        refine .inr ⟨buf1, [], hout, Piece.refl hw1 hp1, fun o h1 h2 => by omega, ?_, id,
          .inl ⟨rfl, rfl⟩⟩
        intro e he
        have := hlen e he
        have := hD.1 e he
        rw [len_zero_iff] at hc
        simp only [Fits]; omega
    -- lookups are unaffected where existing data covers
    have hcovlk : ∀ o, (∃ e ∈ r.data, e.2.off ≤ o ∧ o < e.2.maxOff) → ∃ x, lookup r.data o = some x := by
      rintro o ⟨e, he, h1, h2⟩
      obtain ⟨x, hx⟩ := Option.isSome_iff_exists.mp
        ((RangeBuf.byteAt_isSome (hD.1 e he).2.1 o).mpr ⟨h1, h2⟩)
      exact ⟨x, (lookup_iff hD o x).mpr ⟨e, he, hx⟩⟩
    rcases hov _ rfl with ⟨e, he, h1, h2, h3⟩ | ⟨b, tmp', h1, h2, h3, h4, h5, h6⟩
    · -- contained
      rw [h1]
      simp only [tmpLoop]
      have := hlen e he
      have hmax : max r.len buf.maxOff = r.len := by omega
      refine ⟨r.data, by rw [hmax], hD, fun e he => by have := hlen e he; omega, ?_,
        fun e he _ => .inl he, ?_⟩
      · intro o ho
        by_cases hin : buf1.off ≤ o ∧ o < buf1.maxOff
        · obtain ⟨x, hx⟩ := hcovlk o (h2 o hin.1 hin.2)
          simp [hx]
        · rw [← hb1 o ho, RangeBuf.byteAt_none hw1 (by omega)]; simp
      · intro h; simp [h] at he
    · rw [h1]
      obtain ⟨hbw, hbp, hbo, hbm, hbb⟩ := h2
      have hbge := maxOff_ge b
      have hoffb : r.off ≤ b.off := by omega
      have hDi := mapInsert_inv hD hbw hoffb h4
      have hlk := mapInsert_lookup hD hbw hoffb h4
      have hsort : r.data.Pairwise (fun x y => x.1 < y.1) := hD.2.imp (fun h => h.1)
      have hmem := mapInsert_mem b.maxOff b r.data hsort
      simp only [hdr, Bool.false_eq_true, if_false]
      -- the bytes of `buf1` below and inside `b`
      have hlow : ∀ o, r.off ≤ o → o < b.maxOff →
          (lookup r.data o).or (b.byteAt o) = (lookup r.data o).or (buf.byteAt o) := by
        intro o ho hlt
        rw [← hb1 o ho]
        by_cases hob : b.off ≤ o
        · rw [hbb o hob hlt]
        · by_cases hin : buf1.off ≤ o
          · obtain ⟨x, hx⟩ := hcovlk o (h3 o hin (by omega))
            simp [hx]
          · rw [RangeBuf.byteAt_none hbw (by omega), RangeBuf.byteAt_none hw1 (by omega)]
      rcases h6 with ⟨rfl, h6⟩ | ⟨x, rfl, q1, q2, q3, q4, e, q5, q6, q7⟩
      · simp only [tmpLoop]
        have hmm : b.maxOff = buf.maxOff := by omega
        refine ⟨mapInsert b.maxOff b r.data, by rw [hmm], hDi, ?_, ?_, ?_, ?_⟩
        · intro e he
          rcases (hmem e).mp he with rfl | ⟨he, _⟩
          · simp only; omega
          · have := hlen e he; omega
        · intro o ho
          rw [hlk]
          by_cases hlt : o < b.maxOff
          · exact hlow o ho hlt
          · rw [← hb1 o ho, RangeBuf.byteAt_none hbw (by omega), RangeBuf.byteAt_none hw1 (by omega)]
        · intro e he hz
          rcases (hmem e).mp he with rfl | ⟨he, _⟩
          · exact .inr ⟨hl1 (h5 hz), hmm⟩
          · exact .inl he
        · intro hnil
          refine ⟨b, by simp [hnil, mapInsert, hmm], ?_, hmm⟩
          have hcc : ¬ buf1.off < b.off := by
            intro hlt
            obtain ⟨e, he, _⟩ := h3 buf1.off (Nat.le_refl _) hlt
            simp [hnil] at he
          omega
      · -- a remainder is left
        have hxge := maxOff_ge x
        rw [ne_eq, len_zero_iff] at q4
        obtain ⟨D', i1, i2, i3, i4, i5, i6⟩ := ih
          { r with len := max r.len b.maxOff, data := mapInsert b.maxOff b r.data } x hDi
          (by
            intro e he
            rcases (hmem e).mp he with rfl | ⟨he, _⟩
            · simp only; omega
            · have := hlen e he; simp only; omega) hdr q1.1 q1.2.1
          (.inl (by simp only; omega)) (by
            simp only
            refine Nat.lt_of_le_of_lt (mapInsert_filter_le _ _ _ _ (by simp; omega)) ?_
            have := filter_length_lt r.data (fun e => decide (x.off < e.2.off))
              (fun e => decide (buf.off < e.2.off))
              (by intro y _ hy; simp only [decide_eq_true_eq] at *; omega)
              ⟨e, q5, by simp only [decide_eq_true_eq]; omega, by simp only [decide_eq_true_eq]; omega⟩
            omega)
        have hmm : max (max r.len b.maxOff) x.maxOff = max r.len buf.maxOff := by omega
        simp only [hmm] at i1 i3
        refine ⟨D', (by simpa only [hdr] using i1), i2, i3, ?_, ?_, ?_⟩
        · intro o ho
          rw [i4 o ho]
          simp only
          rw [hlk]
          by_cases hlt : o < b.maxOff
          · rw [hlow o ho hlt, RangeBuf.byteAt_none q1.1 (by omega)]; simp
          · rw [RangeBuf.byteAt_none hbw (by omega), Option.or_none]
            by_cases hlt2 : o < x.maxOff
            · rw [q1.2.2.2.2 o (by omega) hlt2, hb1 o ho]
            · rw [RangeBuf.byteAt_none q1.1 (by omega), ← hb1 o ho, RangeBuf.byteAt_none hw1 (by omega)]
        · intro e he hz
          rcases i5 e he hz with h | ⟨h, _⟩
          · rcases (hmem e).mp h with rfl | ⟨he, _⟩
            · exact .inr ⟨hl1 (h5 hz), by
                have h5z := h5 hz
                rw [len_zero_iff] at h5z hz
                simp only at hz ⊢; omega⟩
            · exact .inl he
          · rw [len_zero_iff] at h; omega
        · intro hnil; simp [hnil] at q5

/-! ### Reading -/

theorem emitLoop_spec (cap off : Nat) (D : List Entry) (h : DInv off D) :
    ∀ out off' D', emitLoop cap off D = (out, off', D') →
      off' = off + out.length ∧ out.length ≤ cap ∧
      (∀ i, i < out.length → out[i]? = lookup D (off + i)) ∧
      (out.length = cap ∨ lookup D off' = none) ∧
      DInv off' D' ∧ (∀ o, off' ≤ o → lookup D' o = lookup D o) ∧
      (∀ e' ∈ D', ∃ e ∈ D, e'.1 = e.1 ∧ (e'.2.len = 0 → e.2.len = 0)) ∧
      (0 < cap → ∀ e ∈ D, e.2.len = 0 → e.1 = off → e ∉ D') := by
  induction D generalizing cap off with
  | nil =>
    intro out off' D' he
    simp only [emitLoop, Prod.mk.injEq] at he
    obtain ⟨rfl, rfl, rfl⟩ := he
    simp [lookup, dinv_nil]
  | cons e t ih =>
    obtain ⟨k, b⟩ := e
    intro out off' D' he
    have hD := h
    rw [dinv_cons] at h
    obtain ⟨⟨h1, h2, h3⟩, h4, h5⟩ := h
    simp only at h1 h2 h3 h4
    have hbge := maxOff_ge b
    simp only [emitLoop] at he
    by_cases hc : cap > 0 ∧ b.off = off
    · rw [if_pos hc] at he
      have hbl := RangeBuf.bytes_length h2
      have hbyte : ∀ i, i < b.len → b.byteAt (off + i) = b.bytes[i]? := by
        intro i hi
        simp only [RangeBuf.byteAt, hc.2]
        rw [if_pos (by omega)]; congr 1; omega
      by_cases hn : min b.len cap < b.len
      · -- partial chunk
        rw [if_pos hn] at he
        simp only [Prod.mk.injEq] at he
        obtain ⟨rfl, rfl, rfl⟩ := he
        have hmin : min b.len cap = cap := by omega
        rw [hmin]
        obtain ⟨c1, c2, c3, c4, c5, c6, c7⟩ := RangeBuf.consume_spec h2 (n := cap) (by omega)
        have hol : (b.bytes.take cap).length = cap := by
          rw [List.length_take, hbl]; omega
        refine ⟨by rw [hol], by omega, ?_, .inl hol, ?_, ?_, ?_, ?_⟩
        · intro i hi
          rw [hol] at hi
          rw [lookup_cons, hbyte i (by omega), List.getElem?_take_of_lt hi]
          have : b.bytes[i]? = some (b.bytes[i]'(by omega)) := List.getElem?_eq_getElem _
          rw [this]; simp
        · rw [dinv_cons]
          refine ⟨⟨by simp only; omega, c1, by simp only; omega⟩, ?_, ?_⟩
          · intro y hy; have := h4 y hy; simp only; omega
          · exact h5.mono (fun e he => by
              have := (h4 e he).2; simp only [RangeBuf.maxOff] at this; omega)
        · intro o ho
          rw [lookup_cons, lookup_cons]
          simp only
          rw [c7 o (by omega)]
        · intro e' he'
          simp only [List.mem_cons] at he'
          rcases he' with rfl | he'
          · exact ⟨(k, b), by simp, rfl, fun hz => by simp only at hz ⊢; omega⟩
          · exact ⟨e', by simp [he'], rfl, id⟩
        · intro _ e he hz hk
          simp only [List.mem_cons] at he
          rcases he with rfl | he
          · simp only at hz; omega
          · have := (h4 e he).1
            have : b.maxOff = off + b.len := by simp only [RangeBuf.maxOff]; omega
            omega
      · -- whole chunk
        rw [if_neg hn] at he
        have hmin : min b.len cap = b.len := by omega
        rw [hmin] at he
        have hmo : b.maxOff = off + b.len := by simp only [RangeBuf.maxOff]; omega
        have htk : b.bytes.take b.len = b.bytes := List.take_of_length_le (by omega)
        rw [htk] at he
        rcases hl : emitLoop (cap - b.len) (off + b.len) t with ⟨o2, f2, d2⟩
        rw [hl] at he
        simp only [Prod.mk.injEq] at he
        obtain ⟨rfl, rfl, rfl⟩ := he
        have hD2 : DInv (off + b.len) t := h5.mono (fun e he => by
          have := (h4 e he).2; omega)
        obtain ⟨j1, j2, j3, j4, j5, j6, j7, j8⟩ := ih (cap - b.len) (off + b.len) hD2 _ _ _ hl
        have hnone : ∀ o, off + b.len ≤ o → b.byteAt o = none := fun o ho =>
          RangeBuf.byteAt_none h2 (by omega)
        refine ⟨by rw [List.length_append]; omega, by rw [List.length_append]; omega, ?_, ?_, j5, ?_, ?_, ?_⟩
        · intro i hi
          rw [List.length_append] at hi
          rw [lookup_cons]
          by_cases hlt : i < b.len
          · rw [List.getElem?_append_left (by omega), hbyte i hlt]
            have : b.bytes[i]? = some (b.bytes[i]'(by omega)) := List.getElem?_eq_getElem _
            rw [this]; simp
          · rw [List.getElem?_append_right (by omega), hnone _ (by omega), hbl]
            have := j3 (i - b.len) (by omega)
            rw [this, Option.none_or]; congr 1; omega
        · rw [List.length_append]
          rcases j4 with j4 | j4
          · left; omega
          · right; rw [lookup_cons, hnone _ (by omega), Option.none_or]; exact j4
        · intro o ho
          rw [j6 o ho, lookup_cons, hnone _ (by omega), Option.none_or]
        · intro e' he'
          obtain ⟨e, he, g⟩ := j7 e' he'
          exact ⟨e, by simp [he], g⟩
        · intro _ e he hz hk hin
          obtain ⟨e2, he2, g1, g2⟩ := j7 e hin
          have := (h4 e2 he2).1
          omega
    · -- nothing readable
      rw [if_neg hc] at he
      simp only [Prod.mk.injEq] at he
      obtain ⟨rfl, rfl, rfl⟩ := he
      refine ⟨by simp, by simp, by simp, ?_, hD, fun _ _ => rfl, fun e' he' => ⟨e', he', rfl, id⟩, ?_⟩
      · by_cases h0 : cap = 0
        · left; simp [h0]
        · right
          rw [lookup_none hD]
          intro e he
          simp only [List.mem_cons] at he
          rcases he with rfl | he
          · exact RangeBuf.byteAt_none h2 (by omega)
          · have := (h4 e he).2
            exact RangeBuf.byteAt_none (h5.1 e he).2.1 (by omega)
      · intro h0 e he hz hk
        exfalso
        simp only [List.mem_cons] at he
        rcases he with rfl | he
        · rw [len_zero_iff] at hz; simp only at hz hk; omega
        · have := (h4 e he).1
          omega

end Verif.Stream.RecvBuf
