import Verif.Frame.Spec
import Verif.Ranges.Lemmas

/-! The parser accepts exactly the wire format; the serialiser produces it. -/

namespace Verif.Frame
open Verif Verif.Io

theorem distinct : Distinct Err := by unfold Distinct; decide

/-! ### ACK ranges -/

/-- The checks and insertions of `parse_ack_frame` without the reading. -/
def build : Nat → List (Nat × Nat) → Ranges.RangeSet → Option Ranges.RangeSet
  | _, [], r => some r
  | smallest, (gap, len) :: t, r =>
    if smallest < 2 + gap then none
    else if smallest - gap - 2 < len then none
    else (r.insert (smallest - gap - 2 - len, smallest - gap - 2 + 1)).bind fun r =>
      build (smallest - gap - 2 - len) t r

theorem gram_insert (r : Ranges.RangeSet) (s e : Nat) :
    Gram (insertRange r s e) (fun fs _ r' => fs = [] ∧ r.insert (s, e) = some r') := by
  unfold insertRange
  split
  · next r' h =>
    refine (Gram.pure r').congr fun fs tail a => ?_
    rw [h]; simp [eq_comm]
  · next h =>
    refine (Gram.fail _).congr fun fs tail a => ?_
    rw [h]; simp

theorem gram_blocks (n smallest : Nat) (r : Ranges.RangeSet) :
    Gram (ackBlocks n smallest r) (fun fs _ r' => ∃ blocks, blocks.length = n ∧
      fs = blockFields blocks ∧ build smallest blocks r = some r') := by
  induction n generalizing smallest r with
  | zero =>
    refine (Gram.pure r).congr fun fs tail r' => ?_
    constructor
    · rintro ⟨rfl, rfl⟩; exact ⟨[], rfl, rfl, rfl⟩
    · rintro ⟨blocks, h, rfl, hb⟩
      cases List.length_eq_zero_iff.mp h
      cases hb; exact ⟨rfl, rfl⟩
  | succ n ih =>
    refine (Gram.bind gram_varint fun gap => Gram.ite (Gram.fail _)
      (Gram.bind gram_varint fun len => Gram.ite (Gram.fail _)
        (Gram.bind (gram_insert _ _ _) fun r' => ih _ r'))).congr fun fs tail r2 => ?_
    constructor
    · rintro ⟨_, _, gap, rfl, rfl, ⟨_, h⟩ | ⟨h1, _, _, len, rfl, rfl, ⟨_, h⟩ | ⟨h2, _, _, r1, rfl, ⟨rfl, h3⟩, bl, rfl, rfl, h4⟩⟩⟩
      · exact h.elim
      · exact h.elim
      · refine ⟨(gap, len) :: bl, rfl, rfl, ?_⟩
        simp only [build]
        rw [if_neg h1, if_neg h2, h3]; exact h4
    · rintro ⟨blocks, h, rfl, hb⟩
      obtain ⟨⟨gap, len⟩, bl, rfl⟩ : ∃ b t, blocks = b :: t := by
        cases blocks with
        | nil => simp at h
        | cons b t => exact ⟨b, t, rfl⟩
      simp only [build] at hb
      split at hb
      · cases hb
      next h1 =>
      split at hb
      · cases hb
      next h2 =>
      obtain ⟨r1, h3, h4⟩ := Option.bind_eq_some_iff.mp hb
      exact ⟨[.int gap], [.int len] ++ ([] ++ blockFields bl), gap, rfl, rfl, .inr ⟨h1, [.int len], _, len, rfl, rfl,
        .inr ⟨h2, [], _, r1, rfl, ⟨rfl, h3⟩, bl, by simpa using h, rfl, h4⟩⟩⟩

/-- Inserting below everything. -/
theorem insert_front {r r' : Ranges.RangeSet} {s e : Nat} (hi : Ranges.Inv r) (hse : s ≤ e)
    (hcap : r.ranges.length < r.capacity) (hlt : ∀ x ∈ r.ranges, e < x.1)
    (h : r.insert (s, e) = some r') :
    Ranges.Inv r' ∧ r'.capacity = r.capacity ∧ r'.ranges = (s, e) :: r.ranges := by
  obtain ⟨i1, i2, i3⟩ := Ranges.insert_spec hi hse h
  refine ⟨i1, i2, ?_⟩
  have e1 : Ranges.ins s e r.ranges = (s, e) :: r.ranges := by
    rcases hr : r.ranges with _ | ⟨⟨a, b⟩, t⟩
    · rfl
    · have h1 := hlt (a, b) (by rw [hr]; simp)
      have h2 := hi.1.2 (a, b) (by rw [hr]; simp)
      simp only at h1 h2
      simp only [Ranges.ins]
      rw [if_neg (by omega), if_pos h1]
  rcases i3 with i3 | i3
  · rw [i3, e1]
  · have := i3.1; omega

/-- What `build` makes. -/
theorem build_spec (blocks : List (Nat × Nat)) : ∀ (smallest : Nat) (r : Ranges.RangeSet), Ranges.Inv r →
    (∀ x ∈ r.ranges, smallest ≤ x.1) → r.ranges.length + blocks.length < r.capacity →
    (∀ r', build smallest blocks r = some r' →
      ∃ l, r'.ranges = l ++ r.ranges ∧ l.reverse.map incl = ackedFrom smallest blocks ∧
        Ranges.Inv r') ∧
    ((∀ x ∈ ackedFrom smallest blocks, 0 ≤ x.1) → ∃ r', build smallest blocks r = some r') := by
  induction blocks with
  | nil =>
    intro smallest r hi _ _
    refine ⟨?_, fun _ => ⟨r, rfl⟩⟩
    intro r' h; cases h
    exact ⟨[], rfl, rfl, hi⟩
  | cons b t ih =>
    obtain ⟨gap, len⟩ := b
    intro smallest r hi hlo hcap
    simp only [List.length_cons] at hcap
    simp only [build]
    by_cases h1 : smallest < 2 + gap
    · rw [if_pos h1]
      refine ⟨fun r' h => (by cases h), fun h => ?_⟩
      have := h _ (by simp only [ackedFrom]; exact List.mem_cons_self)
      simp only at this; omega
    by_cases h2 : smallest - gap - 2 < len
    · rw [if_neg h1, if_pos h2]
      refine ⟨fun r' h => (by cases h), fun h => ?_⟩
      have := h _ (by simp only [ackedFrom]; exact List.mem_cons_self)
      simp only at this; omega
    rw [if_neg h1, if_neg h2]
    obtain ⟨r1, hr1⟩ := Ranges.insert_isSome (st := r)
      (item := (smallest - gap - 2 - len, smallest - gap - 2 + 1)) (.inl (by omega))
    obtain ⟨i1, i2, i3⟩ := insert_front hi (by omega) (by omega)
      (fun x hx => by have := hlo x hx; omega) hr1
    have hI := ih (smallest - gap - 2 - len) r1 i1
      (by
        intro x hx
        rw [i3] at hx
        rcases List.mem_cons.mp hx with rfl | hx
        · exact Nat.le_refl _
        · have := hlo x hx; omega)
      (by rw [i3, i2]; simp only [List.length_cons]; omega)
    have ez : ((smallest - gap - 2 - len : Nat) : Int) = (smallest : Int) - gap - 2 - len := by omega
    have ez2 : (((smallest - gap - 2 + 1 : Nat) : Int) - 1) = (smallest : Int) - gap - 2 := by omega
    rw [hr1]
    simp only [Option.bind_some, ackedFrom]
    rw [ez] at hI
    constructor
    · intro r' h
      obtain ⟨l, h3, h4, h5⟩ := hI.1 r' h
      refine ⟨l ++ [(smallest - gap - 2 - len, smallest - gap - 2 + 1)], by rw [h3, i3]; simp, ?_, h5⟩
      rw [List.reverse_append, List.map_append, h4]
      simp only [List.reverse_cons, List.reverse_nil, List.nil_append, List.map_cons, List.map_nil,
        List.cons_append, incl, ez, ez2]
    · intro h
      exact hI.2 fun x hx => h x (List.mem_cons_of_mem _ hx)

/-- The set of an ACK frame as the parser makes it. -/
def buildAll (largest first : Nat) (blocks : List (Nat × Nat)) : Option Ranges.RangeSet :=
  if largest < first then none
  else (defaultRanges.insert (largest - first, largest + 1)).bind fun r => build (largest - first) blocks r

theorem buildAll_spec {largest first : Nat} {blocks : List (Nat × Nat)} (hn : blocks.length < 2 ^ 62) :
    (∀ r, buildAll largest first blocks = some r →
      r.ranges.reverse.map incl = acked largest first blocks ∧ Ranges.Inv r) ∧
    ((∀ x ∈ acked largest first blocks, 0 ≤ x.1) → ∃ r, buildAll largest first blocks = some r) := by
  unfold buildAll
  by_cases h1 : largest < first
  · rw [if_pos h1]
    refine ⟨fun r' h => (by cases h), fun h => ?_⟩
    have := h _ (by simp only [acked]; exact List.mem_cons_self)
    simp only at this; omega
  rw [if_neg h1]
  have hd : Ranges.Inv defaultRanges := Ranges.inv_new _
  have hcap : defaultRanges.capacity = 2 ^ 64 - 1 := rfl
  have hr0 : defaultRanges.ranges = [] := rfl
  obtain ⟨r1, hr1⟩ := Ranges.insert_isSome (st := defaultRanges)
    (item := (largest - first, largest + 1)) (.inl (by rw [hr0, hcap]; simp))
  obtain ⟨i1, i2, i3⟩ := insert_front hd (by omega) (by rw [hr0, hcap]; simp)
    (fun x hx => by rw [hr0] at hx; simp at hx) hr1
  have hI := build_spec blocks (largest - first) r1 i1
    (by intro x hx; rw [i3, hr0] at hx; simp only [List.mem_singleton] at hx; subst hx; exact Nat.le_refl _)
    (by rw [i3, i2, hr0, hcap]; simp; omega)
  have ez : ((largest - first : Nat) : Int) = (largest : Int) - first := by omega
  rw [hr1]
  simp only [Option.bind_some, acked]
  rw [ez] at hI
  constructor
  · intro r' h
    obtain ⟨l, h3, h4, h5⟩ := hI.1 r' h
    refine ⟨?_, h5⟩
    rw [h3, i3, hr0, List.reverse_append, List.map_append, h4]
    simp only [List.reverse_cons, List.reverse_nil, List.nil_append, List.map_cons, List.map_nil,
      List.cons_append, incl, ez]
    congr 2
    omega
  · intro h
    exact hI.2 fun x hx => h x (List.mem_cons_of_mem _ hx)

/-- Body of an ACK frame with the set as the parser makes it. -/
def AckD (fs : List Field) (f : Frame) (withEcn : Bool) : Prop :=
  ∃ largest delay first blocks r ecn,
    fs = [.int largest, .int delay, .int blocks.length, .int first] ++ blockFields blocks ++ ecnFields ecn ∧
    buildAll largest first blocks = some r ∧
    ecn.isSome = withEcn ∧
    f = .ack delay r ecn

theorem gram_ack (ty : Nat) : Gram (parseAck ty) (fun fs _ f => AckD fs f (ty % 256 &&& 0x01 != 0)) := by
  refine (Gram.bind gram_varint fun largest => Gram.bind gram_varint fun delay =>
    Gram.bind gram_varint fun count => Gram.bind gram_varint fun first =>
    Gram.ite (Gram.fail _) (Gram.bind (gram_insert _ _ _) fun r =>
      Gram.bind (gram_blocks _ _ _) fun r => Gram.ite
        (Gram.bind gram_varint fun ect0 => Gram.bind gram_varint fun ect1 =>
          Gram.bind gram_varint fun ce => Gram.pure _) (Gram.pure _))).congr fun fs tail f => ?_
  constructor
  · rintro ⟨_, _, largest, rfl, rfl, _, _, delay, rfl, rfl, _, _, count, rfl, rfl, _, _, first, rfl, rfl,
      ⟨_, h⟩ | ⟨h1, _, _, r1, rfl, ⟨rfl, h2⟩, _, _, r, rfl, ⟨blocks, rfl, rfl, h3⟩,
        ⟨h4, _, _, e0, rfl, rfl, _, _, e1, rfl, rfl, _, _, ce, rfl, rfl, rfl, rfl⟩ | ⟨h4, rfl, rfl⟩⟩⟩
    · exact h.elim
    · exact ⟨largest, delay, first, blocks, r, some ⟨e0, e1, ce⟩, by simp [ecnFields],
        by unfold buildAll; rw [if_neg h1, h2]; exact h3, by simpa using h4, rfl⟩
    · exact ⟨largest, delay, first, blocks, r, none, by simp [ecnFields],
        by unfold buildAll; rw [if_neg h1, h2]; exact h3, by simpa using h4, rfl⟩
  · rintro ⟨largest, delay, first, blocks, r, ecn, rfl, h1, h2, rfl⟩
    unfold buildAll at h1
    split at h1
    · cases h1
    next h3 =>
    obtain ⟨r1, h4, h5⟩ := Option.bind_eq_some_iff.mp h1
    refine ⟨[.int largest], _, largest, rfl, rfl, [.int delay], _, delay, rfl, rfl, [.int blocks.length], _, _, rfl, rfl,
      [.int first], _, _, rfl, rfl, .inr ⟨h3, [], _, r1, rfl, ⟨rfl, h4⟩, blockFields blocks, ecnFields ecn, r, rfl, ⟨blocks, rfl, rfl, h5⟩, ?_⟩⟩
    cases ecn with
    | none => exact .inr ⟨by simpa using h2, rfl, rfl⟩
    | some e => exact .inl ⟨by simpa using h2, [.int e.ect0], _, _, rfl, rfl, [.int e.ect1], _, _, rfl, rfl,
        [.int e.ce], [], _, rfl, rfl, rfl, rfl⟩

/-! ### The other frames -/

/-- Reading a length off the rest of the buffer. -/
theorem gram_cap {α : Type} {f : Nat → P α} {M : Nat → List Field → Bytes → α → Prop}
    (h : ∀ n, Gram (f n) (M n)) (hr : ∀ n fs tail a, M n fs tail a → ∃ d, fs = [.raw d]) :
    Gram ((cap : P Nat) >>= f) (fun fs tail a => ∃ n d, M n fs tail a ∧ fs = [.raw d] ∧
      n = d.length + tail.length) := by
  have hl : ∀ c : Cur, c.rest.length = c.cap := fun c => by unfold Cur.rest Cur.cap; simp
  constructor
  · intro c a c' hc he
    obtain ⟨fs, bs, h1, h2, h3, h4, h5⟩ := (h c.cap).sound c a c' hc he
    obtain ⟨d, rfl⟩ := hr _ _ _ _ h5
    refine ⟨_, bs, h1, h2, h3, h4, _, d, h5, rfl, ?_⟩
    have : bs = d := spells_one.mp h1
    subst this
    rw [← hl c, h2]; simp
  · rintro fs bs tail a ⟨n, d, h1, rfl, rfl⟩ hs
    have hs' : bs = d := spells_one.mp hs
    subst hs'
    intro c hc hr
    have e : c.cap = bs.length + tail.length := by rw [← hl c, hr]; simp
    have := (h c.cap).complete _ bs tail a (by rw [e]; exact h1) hs c hc hr
    exact this

theorem gram_dgram (ty : Nat) : Gram (parseDatagram ty) (fun fs tail f =>
    if ty % 256 &&& 0x01 ≠ 0 then ∃ data, fs = [.int data.length, .raw data] ∧ f = .datagram data
    else ∃ data, fs = [.raw data] ∧ tail = [] ∧ f = .datagram data) := by
  unfold parseDatagram
  by_cases h : ty % 256 &&& 0x01 ≠ 0
  · simp only [if_pos h]
    refine (Gram.bind gram_varint fun n => Gram.bind (gram_bytes n) fun d => Gram.pure _).congr fun fs tail f => ?_
    constructor
    · rintro ⟨_, _, n, rfl, rfl, _, _, d, rfl, ⟨rfl, rfl⟩, rfl, rfl⟩; exact ⟨d, rfl, rfl⟩
    · rintro ⟨d, rfl, rfl⟩; exact ⟨[.int _], [.raw d], _, rfl, rfl, [.raw d], [], d, rfl, ⟨rfl, rfl⟩, rfl, rfl⟩
  · simp only [if_neg h]
    refine (gram_cap (fun n => Gram.bind (gram_bytes n) fun d => Gram.pure _) ?_).congr fun fs tail f => ?_
    · rintro n fs tail a ⟨_, _, d, rfl, ⟨rfl, rfl⟩, rfl, rfl⟩; exact ⟨d, rfl⟩
    · constructor
      · rintro ⟨n, _, ⟨_, _, d, rfl, ⟨rfl, rfl⟩, rfl, rfl⟩, hd, hn⟩
        simp at hd; subst hd
        exact ⟨d, rfl, List.length_eq_zero_iff.mp (by omega), rfl⟩
      · rintro ⟨d, rfl, rfl, rfl⟩
        exact ⟨_, d, ⟨[.raw d], [], d, rfl, ⟨rfl, rfl⟩, rfl, rfl⟩, rfl, by simp⟩

theorem gram_stream (ty : Nat) : Gram (parseStream ty) (fun fs tail f =>
    StreamBody (ty % 256 &&& 0x04 != 0) (ty % 256 &&& 0x02 != 0) (ty % 256 &&& 0x01 != 0) fs tail f) := by
  have key : ∀ (o l : Bool) (g : Nat → Nat → Bytes → Frame),
      Gram (ε := Err) (α := Frame) (do
        let id ← (varint : P Nat)
        let off ← (if o = true then varint else pure 0)
        let len ← (if l = true then varint else cap)
        if off + len ≥ maxStreamSize then Io.fail .invalidFrame else do
        let data ← bytes len
        pure (g id off data)) (fun fs tail f => ∃ id off data,
          fs = [.int id] ++ (if o then [.int off] else []) ++
            (if l then [.int data.length] else []) ++ [.raw data] ∧
          (o = false → off = 0) ∧ (l = false → tail = []) ∧
          off + data.length < 2 ^ 62 ∧ f = g id off data) := by
    intro o l g
    have inner : ∀ id off, Gram (ε := Err) (α := Frame) (do
        let len ← (if l = true then varint else cap)
        if off + len ≥ maxStreamSize then Io.fail .invalidFrame else do
        let data ← bytes len
        pure (g id off data)) (fun fs tail f => ∃ data,
          fs = (if l then [.int data.length] else []) ++ [.raw data] ∧
          (l = false → tail = []) ∧ off + data.length < 2 ^ 62 ∧ f = g id off data) := by
      intro id off
      cases l with
      | true =>
        simp only [if_true]
        refine (Gram.bind gram_varint fun n => Gram.ite (Gram.fail _) (Gram.bind (gram_bytes n) fun d => Gram.pure _)).congr fun fs tail f => ?_
        constructor
        · rintro ⟨_, _, n, rfl, rfl, ⟨_, h⟩ | ⟨h, _, _, d, rfl, ⟨rfl, rfl⟩, rfl, rfl⟩⟩
          · exact h.elim
          · exact ⟨d, rfl, by simp, by unfold maxStreamSize at h; omega, rfl⟩
        · rintro ⟨d, rfl, _, h, rfl⟩
          exact ⟨[.int _], [.raw d], _, rfl, rfl, .inr ⟨by unfold maxStreamSize; omega, [.raw d], [], d, rfl, ⟨rfl, rfl⟩, rfl, rfl⟩⟩
      | false =>
        simp only [Bool.false_eq_true, if_false]
        refine (gram_cap (fun n => Gram.ite (Gram.fail _) (Gram.bind (gram_bytes n) fun d => Gram.pure _)) ?_).congr fun fs tail f => ?_
        · rintro n fs tail a (⟨_, h⟩ | ⟨h, _, _, d, rfl, ⟨rfl, rfl⟩, rfl, rfl⟩)
          · exact h.elim
          · exact ⟨d, rfl⟩
        · constructor
          · rintro ⟨n, _, ⟨_, h⟩ | ⟨h, _, _, d, rfl, ⟨rfl, rfl⟩, rfl, rfl⟩, hd, hn⟩
            · exact h.elim
            · simp at hd; subst hd
              exact ⟨d, rfl, fun _ => List.length_eq_zero_iff.mp (by omega), by unfold maxStreamSize at h; omega, rfl⟩
          · rintro ⟨d, rfl, ht, h, rfl⟩
            cases ht trivial
            exact ⟨_, d, .inr ⟨by unfold maxStreamSize; omega, [.raw d], [], d, rfl, ⟨rfl, rfl⟩, rfl, rfl⟩, rfl, by simp⟩
    cases o with
    | true =>
      simp only [if_true]
      refine (Gram.bind gram_varint fun id => Gram.bind gram_varint fun off => inner id off).congr fun fs tail f => ?_
      constructor
      · rintro ⟨_, _, id, rfl, rfl, _, _, off, rfl, rfl, d, rfl, h1, h2, rfl⟩
        exact ⟨id, off, d, by simp, by simp, h1, h2, rfl⟩
      · rintro ⟨id, off, d, rfl, _, h1, h2, rfl⟩
        exact ⟨[.int id], [.int off] ++ ((if l then [.int d.length] else []) ++ [.raw d]), id, by simp, rfl, [.int off], _, off, rfl, rfl, d, rfl, h1, h2, rfl⟩
    | false =>
      simp only [Bool.false_eq_true, if_false]
      refine (Gram.bind gram_varint fun id => Gram.bind (Gram.pure 0) fun off => inner id off).congr fun fs tail f => ?_
      constructor
      · rintro ⟨_, _, id, rfl, rfl, _, _, off, rfl, ⟨rfl, rfl⟩, d, rfl, h1, h2, rfl⟩
        exact ⟨id, 0, d, by simp, by simp, h1, h2, rfl⟩
      · rintro ⟨id, off, d, rfl, h0, h1, h2, rfl⟩
        cases h0 trivial
        exact ⟨[.int id], ((if l then [.int d.length] else []) ++ [.raw d]), id, by simp, rfl, [], _, 0, rfl, ⟨rfl, rfl⟩, d, rfl, h1, h2, rfl⟩
  have := key (ty % 256 &&& 0x04 != 0) (ty % 256 &&& 0x02 != 0)
    (fun id off data => .stream id off data (ty % 256 &&& 0x01 != 0))
  refine Gram.congr (p := parseStream ty) (L := _) (M := _) ?_ (fun fs tail a => Iff.rfl)
  unfold parseStream
  have e4 : (ty % 256 &&& 0x04 ≠ 0) = ((ty % 256 &&& 0x04 != 0) = true) := by simp
  have e2 : (ty % 256 &&& 0x02 ≠ 0) = ((ty % 256 &&& 0x02 != 0) = true) := by simp
  simp only [e4, e2]
  exact this

theorem zeros_spec (bs : Bytes) : ∃ t, bs = List.replicate (zeros bs) 0 ++ t ∧ t.head? ≠ some 0 := by
  induction bs with
  | nil => exact ⟨[], rfl, by simp⟩
  | cons b t ih =>
    simp only [zeros]
    split
    · next h =>
      obtain ⟨t', h1, h2⟩ := ih
      exact ⟨t', by rw [List.replicate_succ, List.cons_append, ← h1, h], h2⟩
    · next h => exact ⟨b :: t, rfl, by simpa using h⟩

theorem zeros_append (n : Nat) {t : Bytes} (h : t.head? ≠ some 0) : zeros (List.replicate n 0 ++ t) = n := by
  induction n with
  | zero =>
    cases t with
    | nil => rfl
    | cons b t => simp only [List.replicate_zero, List.nil_append, zeros]; rw [if_neg (by simpa using h)]
  | succ n ih => simp [List.replicate_succ, zeros, ih]

theorem gram_zeros : Gram skipZeros (fun fs tail n => fs = [.raw (List.replicate n 0)] ∧ tail.head? ≠ some 0) := by
  constructor
  · intro c n c' hc h
    unfold skipZeros at h
    cases h
    obtain ⟨t, h1, h2⟩ := zeros_spec c.rest
    have hl : c.rest.length = zeros c.rest + t.length := by rw [h1]; simp [zeros_append _ h2]
    have hw : ({ c with off := c.off + zeros c.rest } : Cur).WF := by
      unfold Cur.WF at *
      have : c.rest.length = c.buf.length - c.off := by unfold Cur.rest; simp
      simp only; omega
    have hrest : ({ c with off := c.off + zeros c.rest } : Cur).rest = t := by
      show c.buf.drop (c.off + zeros c.rest) = t
      rw [← List.drop_drop]
      show c.rest.drop (zeros c.rest) = t
      generalize zeros c.rest = z at h1
      rw [h1, List.drop_left' (by simp)]
    refine ⟨[.raw _], List.replicate (zeros c.rest) 0, spells_one.mpr rfl, ?_, by simp, hw, rfl, ?_⟩
    · rw [hrest]; exact h1
    · rw [hrest]; exact h2
  · rintro fs bs tail n ⟨rfl, ht⟩ hs
    have hs : bs = _ := spells_one.mp hs
    subst hs
    intro c hc hr
    unfold skipZeros
    rw [hr, zeros_append n ht]
    simp

/-- What the parser accepts after the frame type. -/
def BodyD (ty : Nat) (fs : List Field) (tail : Bytes) (f : Frame) : Prop :=
  if ty = 2 then AckD fs f false else if ty = 3 then AckD fs f true else Body ty fs tail f

theorem gram1 (g : Nat → Frame) : Gram (do
    let a ← (varint : P Nat)
    pure (g a)) (fun fs _ f => ∃ a, fs = [.int a] ∧ f = g a) := by
  refine (Gram.bind gram_varint fun a => Gram.pure _).congr fun fs tail f => ?_
  constructor
  · rintro ⟨_, _, a, rfl, rfl, rfl, rfl⟩; exact ⟨a, rfl, rfl⟩
  · rintro ⟨a, rfl, rfl⟩; exact ⟨[.int a], [], a, rfl, rfl, rfl, rfl⟩

theorem gram2 (g : Nat → Nat → Frame) : Gram (do
    let a ← (varint : P Nat)
    let b ← (varint : P Nat)
    pure (g a b)) (fun fs _ f => ∃ a b, fs = [.int a, .int b] ∧ f = g a b) := by
  refine (Gram.bind gram_varint fun a => gram1 (g a)).congr fun fs tail f => ?_
  constructor
  · rintro ⟨_, _, a, rfl, rfl, b, rfl, rfl⟩; exact ⟨a, b, rfl, rfl⟩
  · rintro ⟨a, b, rfl, rfl⟩; exact ⟨[.int a], [.int b], a, rfl, rfl, b, rfl, rfl⟩

theorem gram3 (g : Nat → Nat → Nat → Frame) : Gram (do
    let a ← (varint : P Nat)
    let b ← (varint : P Nat)
    let c ← (varint : P Nat)
    pure (g a b c)) (fun fs _ f => ∃ a b c, fs = [.int a, .int b, .int c] ∧ f = g a b c) := by
  refine (Gram.bind gram_varint fun a => gram2 (g a)).congr fun fs tail f => ?_
  constructor
  · rintro ⟨_, _, a, rfl, rfl, b, c, rfl, rfl⟩; exact ⟨a, b, c, rfl, rfl⟩
  · rintro ⟨a, b, c, rfl, rfl⟩; exact ⟨[.int a], [.int b, .int c], a, rfl, rfl, b, c, rfl, rfl⟩

theorem gramR (g : Bytes → Frame) : Gram (do
    let r ← (varBytes : P Bytes)
    pure (g r)) (fun fs _ f => ∃ r, fs = [.int r.length, .raw r] ∧ f = g r) := by
  refine (Gram.bind gram_varBytes fun r => Gram.pure _).congr fun fs tail f => ?_
  constructor
  · rintro ⟨_, _, r, rfl, rfl, rfl, rfl⟩; exact ⟨r, rfl, rfl⟩
  · rintro ⟨r, rfl, rfl⟩; exact ⟨[.int _, .raw r], [], r, rfl, rfl, rfl, rfl⟩

theorem gramIR (g : Nat → Bytes → Frame) : Gram (do
    let a ← (varint : P Nat)
    let r ← (varBytes : P Bytes)
    pure (g a r)) (fun fs _ f => ∃ a r, fs = [.int a, .int r.length, .raw r] ∧ f = g a r) := by
  refine (Gram.bind gram_varint fun a => gramR (g a)).congr fun fs tail f => ?_
  constructor
  · rintro ⟨_, _, a, rfl, rfl, r, rfl, rfl⟩; exact ⟨a, r, rfl, rfl⟩
  · rintro ⟨a, r, rfl, rfl⟩; exact ⟨[.int a], [.int _, .raw r], a, rfl, rfl, r, rfl, rfl⟩

theorem gramIIR (g : Nat → Nat → Bytes → Frame) : Gram (do
    let a ← (varint : P Nat)
    let b ← (varint : P Nat)
    let r ← (varBytes : P Bytes)
    pure (g a b r)) (fun fs _ f => ∃ a b r, fs = [.int a, .int b, .int r.length, .raw r] ∧ f = g a b r) := by
  refine (Gram.bind gram_varint fun a => gramIR (g a)).congr fun fs tail f => ?_
  constructor
  · rintro ⟨_, _, a, rfl, rfl, b, r, rfl, rfl⟩; exact ⟨a, b, r, rfl, rfl⟩
  · rintro ⟨a, b, r, rfl, rfl⟩; exact ⟨[.int a], [.int b, .int _, .raw r], a, rfl, rfl, b, r, rfl, rfl⟩

theorem gramB (n : Nat) (g : Bytes → Frame) : Gram (do
    let r ← (bytes n : P Bytes)
    pure (g r)) (fun fs _ f => ∃ r, r.length = n ∧ fs = [.raw r] ∧ f = g r) := by
  refine (Gram.bind (gram_bytes n) fun r => Gram.pure _).congr fun fs tail f => ?_
  constructor
  · rintro ⟨_, _, r, rfl, ⟨rfl, rfl⟩, rfl, rfl⟩; exact ⟨r, rfl, rfl, rfl⟩
  · rintro ⟨r, rfl, rfl, rfl⟩; exact ⟨[.raw r], [], r, rfl, ⟨rfl, rfl⟩, rfl, rfl⟩

theorem gram_padding : Gram (do
    let n ← skipZeros
    pure (Frame.padding (1 + n))) (Body 0) := by
  constructor
  · intro c f c' hc h
    rw [bind_run] at h
    rcases hp : skipZeros c with ⟨r, c1⟩
    rw [hp] at h
    cases r with
    | error e => cases h
    | ok n =>
      obtain ⟨fs, bs, h1, h2, h3, h4, rfl, h6⟩ := gram_zeros.sound c n c1 hc hp
      cases h
      exact ⟨_, bs, h1, h2, h3, h4, n, rfl, h6, by rw [Nat.add_comm]⟩
  · rintro fs bs tail f ⟨n, rfl, h, rfl⟩ hs
    have := gram_zeros.complete _ bs tail n ⟨rfl, h⟩ hs
    exact Reads.bindPure this (by rw [Nat.add_comm])

theorem gram_parse (ty : Nat) : Gram (parse ty) (BodyD ty) := by
  unfold parse
  split
  · exact gram_padding
  · exact Gram.pure _
  · exact gram_ack 2
  · exact gram_ack 3
  · exact gram3 _
  · exact gram2 _
  · exact gramIR _
  · refine (Gram.bind gram_varint fun n => Gram.ite (Gram.fail _) (gramB n _)).congr fun fs tail f => ?_
    show _ ↔ ∃ token, token ≠ [] ∧ fs = [.int token.length, .raw token] ∧ f = .newToken token
    constructor
    · rintro ⟨_, _, n, rfl, rfl, ⟨_, h⟩ | ⟨h, r, rfl, rfl, rfl⟩⟩
      · exact h.elim
      · exact ⟨r, fun e => h (by rw [e]; rfl), rfl, rfl⟩
    · rintro ⟨r, h, rfl, rfl⟩
      exact ⟨[.int _], [.raw r], _, rfl, rfl, .inr ⟨fun e => h (List.length_eq_zero_iff.mp e), r, rfl, rfl, rfl⟩⟩
  · exact gram_stream 8
  · exact gram_stream 9
  · exact gram_stream 10
  · exact gram_stream 11
  · exact gram_stream 12
  · exact gram_stream 13
  · exact gram_stream 14
  · exact gram_stream 15
  · exact gram1 _
  · exact gram2 _
  · exact gram1 _
  · exact gram1 _
  · exact gram1 _
  · exact gram2 _
  · exact gram1 _
  · exact gram1 _
  · refine (Gram.bind gram_varint fun seq => Gram.bind gram_varint fun ret =>
      Gram.bind (gram_getU 1) fun n => Gram.ite (Gram.fail _)
        (Gram.bind (gram_bytes n) fun cid => gramB 16 _)).congr fun fs tail f => ?_
    show _ ↔ ∃ seq retire cid token, 1 ≤ cid.length ∧ cid.length ≤ 20 ∧ token.length = 16 ∧
      fs = [.int seq, .int retire, .fix 1 cid.length, .raw cid, .raw token] ∧
      f = .newConnectionId seq retire cid token
    constructor
    · rintro ⟨_, _, seq, rfl, rfl, _, _, ret, rfl, rfl, _, _, n, rfl, rfl, ⟨_, h⟩ | ⟨h, _, _, cid, rfl, ⟨rfl, rfl⟩, tok, h1, rfl, rfl⟩⟩
      · exact h.elim
      · unfold maxCidLen at h
        exact ⟨seq, ret, cid, tok, by omega, by omega, h1, rfl, rfl⟩
    · rintro ⟨seq, ret, cid, tok, h1, h2, h3, rfl, rfl⟩
      exact ⟨[.int seq], _, seq, rfl, rfl, [.int ret], _, ret, rfl, rfl, [.fix 1 cid.length], _, _, rfl, rfl,
        .inr ⟨by unfold maxCidLen; omega, [.raw cid], _, cid, rfl, ⟨rfl, rfl⟩, tok, h3, rfl, rfl⟩⟩
  · exact gram1 _
  · exact gramB 8 _
  · exact gramB 8 _
  · exact gramIIR _
  · exact gramIR _
  · exact Gram.pure _
  · exact gram_dgram 0x30
  · exact gram_dgram 0x31
  · refine (Gram.fail _).congr fun fs tail f => ?_
    constructor
    · exact False.elim
    · intro h
      unfold BodyD at h
      rw [if_neg (by assumption), if_neg (by assumption)] at h
      unfold Body at h
      split at h
      all_goals first | contradiction | simp_all

theorem allowed_iff (pkt : PktType) (f : Frame) : allowed pkt f = true ↔ Permitted pkt f := by
  cases pkt <;> cases f <;> simp [allowed, Permitted]

/-- What `Frame::from_bytes` accepts. -/
theorem gram_fromBytes (pkt : PktType) : Gram (fromBytes pkt) (fun fs tail f =>
    ∃ ty body, fs = .int ty :: body ∧ BodyD ty body tail f ∧ Permitted pkt f) := by
  constructor
  · intro c f c' hc h
    have h1 : ∃ f', (varint >>= parse : P Frame) c = (.ok f', c') ∧ f' = f ∧ allowed pkt f = true := by
      unfold fromBytes at h
      rw [bind_run] at h
      rcases hv : (varint : P Nat) c with ⟨r, c1⟩
      rw [hv] at h
      cases r with
      | error e => cases h
      | ok ty =>
        simp only at h
        rw [bind_run] at h
        rcases hp : parse ty c1 with ⟨r, c2⟩
        rw [hp] at h
        cases r with
        | error e => cases h
        | ok g =>
          simp only at h
          split at h
          · next ha =>
            cases h
            exact ⟨f, by rw [bind_run, hv]; exact hp, rfl, ha⟩
          · cases h
    obtain ⟨f, h1, rfl, h2⟩ := h1
    obtain ⟨fs, bs, s1, s2, s3, s4, f1, f2, ty, rfl, rfl, s5⟩ :=
      (Gram.bind gram_varint gram_parse).sound c f c' hc h1
    exact ⟨_, bs, s1, s2, s3, s4, ty, f2, rfl, s5, (allowed_iff _ _).mp h2⟩
  · rintro fs bs tail f ⟨ty, body, rfl, hb, hp⟩ hs
    have h1 := (Gram.bind gram_varint gram_parse).complete _ bs tail f
      ⟨[.int ty], body, ty, rfl, rfl, hb⟩ hs
    intro c hc hr
    have h2 := h1 c hc hr
    unfold fromBytes
    rw [bind_run] at h2 ⊢
    rcases hv : (varint : P Nat) c with ⟨r, c1⟩
    rw [hv] at h2
    cases r with
    | error e => cases h2
    | ok ty' =>
      simp only at h2 ⊢
      rw [bind_run, h2]
      simp only
      rw [if_pos ((allowed_iff _ _).mpr hp)]
      rfl

end Verif.Frame
