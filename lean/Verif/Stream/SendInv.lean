import Verif.Stream.SendLemmas

/-! The invariant of the send buffer and what each operation does to it. -/

namespace Verif
namespace Stream
open Ranges

theorem ins_bound {s e B : Nat} {l : List Rng} (he : e ≤ B) (h : ∀ r ∈ l, r.2 ≤ B) :
    ∀ r ∈ ins s e l, r.2 ≤ B := by
  have hm : ∀ (l : List Rng) (x : Nat), x ≤ B → (∀ r ∈ l, r.2 ≤ B) → (mergeEnd x l).1 ≤ B := by
    intro l
    induction l with
    | nil => intro x hx _; exact hx
    | cons r t ih =>
      intro x hx h
      obtain ⟨a, b⟩ := r
      have := h (a, b) (by simp)
      simp only at this
      simp only [mergeEnd]
      split
      · exact hx
      · exact ih _ (by omega) (fun r hr => h r (by simp [hr]))
  induction l with
  | nil => intro r hr; simp [ins] at hr; subst hr; exact he
  | cons r t ih =>
    obtain ⟨a, b⟩ := r
    have hb := h (a, b) (by simp)
    have ht : ∀ r ∈ t, r.2 ≤ B := fun r hr => h r (by simp [hr])
    simp only at hb
    simp only [ins]
    intro r hr
    split at hr
    · rcases List.mem_cons.mp hr with rfl | hr
      · exact hb
      · exact ih ht r hr
    · split at hr
      · rcases List.mem_cons.mp hr with rfl | hr
        · exact he
        · exact h r hr
      · rcases List.mem_cons.mp hr with rfl | hr
        · exact hm t _ (by omega) ht
        · exact ht r ((mergeEnd_sub _ _).subset hr)

theorem ins_ne_nil (s e : Nat) (l : List Rng) : ins s e l ≠ [] := by
  cases l with
  | nil => simp [ins]
  | cons r t =>
    obtain ⟨a, b⟩ := r
    simp only [ins]
    split
    · simp
    · split <;> simp

theorem norm_zero {l : List Rng} (h : Norm l) (h0 : ∀ r ∈ l, r.2 ≤ 0) (hne : l ≠ []) :
    l = [(0, 0)] := by
  cases l with
  | nil => exact absurd rfl hne
  | cons r t =>
    obtain ⟨a, b⟩ := r
    have h1 := norm_cons.mp h
    have h2 := h0 (a, b) (by simp)
    simp only at h1 h2
    have : a = 0 ∧ b = 0 := by omega
    obtain ⟨rfl, rfl⟩ := this
    cases t with
    | nil => rfl
    | cons r2 t =>
      have h3 := h1.2.1 r2 (by simp)
      have h4 := h0 r2 (by simp)
      have h5 := (norm_cons.mp h1.2.2).1
      omega

theorem Chain.drop {b t : Nat} {l : List RangeBuf} (h : Chain b l t) (k : Nat) :
    ∃ b', Chain b' (l.drop k) t ∧ b ≤ b' := by
  induction k generalizing b l with
  | zero => exact ⟨b, by simpa using h, Nat.le_refl _⟩
  | succ k ih =>
    cases l with
    | nil => exact ⟨b, by simpa using h, Nat.le_refl _⟩
    | cons c l =>
      obtain ⟨b', h1, h2⟩ := ih h.2
      exact ⟨b', by simpa using h1, by omega⟩

namespace SendBuf

/-- Invariant of a send buffer into which the application has written `W`. -/
structure SInv (s : SendBuf) (W : Bytes) : Prop where
  chain : ∃ base, Chain base s.data s.off ∧ base ≤ s.ackOff
  good : ∀ c ∈ s.data, Good W c
  done : ∀ c ∈ s.data.take s.pos, c.len = 0
  posLe : s.pos ≤ s.data.length
  buf : s.bufferedBytes = lens s.data
  max : s.off ≤ s.maxData
  maxB : s.maxData < 2 ^ 62
  emit : s.emitOff ≤ s.off
  mark : ∀ c ∈ s.data, c.off ≤ Nat.max s.emitOff c.off'
  inv : Ranges.Inv s.acked
  cap : s.acked.capacity = usizeMax
  ackB : ∀ r ∈ s.acked.ranges, r.2 ≤ s.emitOff
  fin : ∀ F, s.finOff = some F → F = s.off
  state : (s.error = none ∧ s.shutdown = false ∧ s.off = W.length) ∨
    (s.data = [] ∧ s.finOff = some s.off ∧ s.emitOff = s.off ∧ s.ackOff = s.off ∧
      s.acked.ranges ≠ [] ∧ (s.error ≠ none ∨ s.shutdown = true) ∧ s.off ≤ W.length ∧ W.length ≤ s.maxData)

theorem SInv.ackOff_le {s : SendBuf} {W : Bytes} (h : SInv s W) : s.ackOff ≤ s.emitOff :=
  ackOffOf_le h.ackB

theorem SInv.wlen {s : SendBuf} {W : Bytes} (h : SInv s W) : s.off ≤ W.length := by
  rcases h.state with h | h
  · omega
  · exact h.2.2.2.2.2.2.1

theorem SInv.wmax {s : SendBuf} {W : Bytes} (h : SInv s W) : W.length ≤ s.maxData := by
  rcases h.state with hs | hs
  · have := h.max; omega
  · exact hs.2.2.2.2.2.2.2

theorem sinv_new {m : Nat} (hm : m < 2 ^ 62) : SInv (new m) [] where
  chain := ⟨0, rfl, by simp⟩
  good := by simp [new]
  done := by simp [new]
  posLe := by simp [new]
  buf := by simp [new]
  max := by simp [new]
  maxB := hm
  emit := by simp [new]
  mark := by simp [new]
  inv := inv_new _
  cap := rfl
  ackB := by simp [new, RangeSet.new, RangeSet.ranges]
  fin := by simp [new]
  state := by simp [new]

/-- Bytes waiting to be sent are found from `pos` on. -/
theorem SInv.pend_drop {s : SendBuf} {W : Bytes} (h : SInv s W) (o : Nat) :
    Pend (s.data.drop s.pos) o ↔ Pend s.data o := by
  conv => rhs; rw [← List.take_append_drop s.pos s.data]
  rw [pend_append]
  constructor
  · exact .inr
  · rintro (h1 | h1)
    · exact absurd h1 (not_pend_of_len h.done o)
    · exact h1

theorem SInv.front {s : SendBuf} {W : Bytes} (h : SInv s W) :
    s.offFront ≤ s.off ∧ (s.offFront < s.off → Pend s.data s.offFront) ∧
    (∀ o, Pend s.data o → s.offFront ≤ o) ∧ s.offFront ≤ s.emitOff := by
  obtain ⟨base, hch, hb⟩ := h.chain
  obtain ⟨b', h1, h2⟩ := hch.drop s.pos
  have hg : ∀ c ∈ s.data.drop s.pos, Good W c := fun c hc => h.good c (List.mem_of_mem_drop hc)
  obtain ⟨f1, f2, f3, f4⟩ := firstUnsent_spec h1 hg
  have f4' : ∀ o, Pend s.data o → s.offFront ≤ o := fun o ho => f4 o ((h.pend_drop o).mpr ho)
  refine ⟨f2, fun hl => (h.pend_drop _).mp (f3 hl), f4', ?_⟩
  have ha := h.ackOff_le
  have he := h.emit
  by_cases hlt : s.emitOff < s.off
  · obtain ⟨c, hc, c1, c2⟩ := hch.cover (o := s.emitOff) (by omega) hlt
    have hm := h.mark c hc
    have hn := (h.good c hc).nums
    refine f4' _ ⟨c, hc, ?_, by omega⟩
    have : Nat.max s.emitOff c.off' = s.emitOff := Nat.max_eq_left c1
    omega
  · have : s.offFront ≤ s.off := f2
    omega

theorem SInv.pend_lt {s : SendBuf} {W : Bytes} (h : SInv s W) {o : Nat} (hp : Pend s.data o) :
    o < s.off := by
  obtain ⟨base, hch, -⟩ := h.chain
  exact (pend_range hch h.good hp).2

/-- A byte that was never sent is waiting. -/
theorem SInv.unsent {s : SendBuf} {W : Bytes} (h : SInv s W) {o : Nat} (h1 : s.emitOff ≤ o)
    (h2 : o < s.off) : Pend s.data o := by
  obtain ⟨base, hch, hb⟩ := h.chain
  have ha := h.ackOff_le
  obtain ⟨c, hc, c1, c2⟩ := hch.cover (o := o) (by omega) h2
  have hm := h.mark c hc
  have hn := (h.good c hc).nums
  refine ⟨c, hc, ?_, by omega⟩
  have : Nat.max s.emitOff c.off' ≤ o := Nat.max_le.mpr ⟨h1, c1⟩
  omega

theorem lens_pos {l : List RangeBuf} {o : Nat} (h : Pend l o) : 0 < lens l := by
  obtain ⟨c, hc, h1, h2⟩ := h
  induction l with
  | nil => simp at hc
  | cons d l ih =>
    simp only [lens_cons]
    rcases List.mem_cons.mp hc with rfl | hc
    · simp only [RangeBuf.maxOff] at h2; omega
    · have := ih hc; omega

theorem pend_of_lens {l : List RangeBuf} (h : 0 < lens l) : ∃ o, Pend l o := by
  induction l with
  | nil => simp at h
  | cons d l ih =>
    simp only [lens_cons] at h
    by_cases hd : 0 < d.len
    · exact ⟨d.off, d, by simp, Nat.le_refl _, by simp only [RangeBuf.maxOff]; omega⟩
    · obtain ⟨o, ho⟩ := ih (by omega)
      exact ⟨o, (pend_cons _ _ _).mpr (.inr ho)⟩

/-- The stream is flushable exactly when bytes are waiting. -/
theorem SInv.flushable {s : SendBuf} {W : Bytes} (h : SInv s W) :
    s.isFlushable = true ↔ ∃ o, Pend s.data o := by
  obtain ⟨f1, f2, f3, f4⟩ := h.front
  have hm := h.max
  simp only [isFlushable, Bool.and_eq_true, decide_eq_true_eq]
  constructor
  · rintro ⟨⟨-, h1⟩, -⟩; exact ⟨_, f2 h1⟩
  · rintro ⟨o, ho⟩
    have h1 := f3 o ho
    have h2 := h.pend_lt ho
    refine ⟨⟨?_, by omega⟩, by omega⟩
    obtain ⟨c, hc, -⟩ := ho
    cases hd : s.data with
    | nil => simp [hd] at hc
    | cons => rfl

/-! ### Emission -/

/-- What `emit` does. -/
structure Sent (s : SendBuf) (W : Bytes) (n : Nat) (s' : SendBuf) (bs : Bytes) (fin : Bool) :
    Prop where
  inv : SInv s' W
  fits : bs.length ≤ n
  bytes : ∀ j, j < bs.length → bs[j]? = W[s.offFront + j]?
  finFlag : fin = (s.finOff == some (s.offFront + bs.length))
  bound : s.offFront + bs.length ≤ s.off
  fields : s' = { s with data := s'.data, pos := s'.pos, bufferedBytes := s'.bufferedBytes,
                         emitOff := Nat.max s.emitOff (s.offFront + bs.length) }
  count : s'.bufferedBytes + bs.length = s.bufferedBytes
  pend : ∀ o, Pend s'.data o ↔ Pend s.data o ∧ ¬ (s.offFront ≤ o ∧ o < s.offFront + bs.length)
  progress : 0 < n → s.offFront < s.off → 0 < bs.length

theorem emit_spec {s : SendBuf} {W : Bytes} (h : SInv s W) (n : Nat) :
    ∃ s' bs fin, s.emit n = .ok (s', bs, fin) ∧ Sent s W n s' bs fin := by
  obtain ⟨base, hch, hb⟩ := h.chain
  obtain ⟨b', h1, h2⟩ := hch.drop s.pos
  have hg : ∀ c ∈ s.data.drop s.pos, Good W c := fun c hc => h.good c (List.mem_of_mem_drop hc)
  have hsplit : s.data = s.data.take s.pos ++ s.data.drop s.pos := (List.take_append_drop _ _).symm
  have hlt : (s.data.take s.pos).length = s.pos := by
    rw [List.length_take]; have := h.posLe; omega
  have hl0 := lens_zero h.done
  have hls : lens s.data = lens (s.data.take s.pos) + lens (s.data.drop s.pos) := by
    conv => lhs; rw [hsplit]
    exact lens_append _ _
  obtain ⟨l', k, next', bs, e, E⟩ := emitLoop_spec (off := s.off) (maxD := s.maxData)
    (s.data.drop s.pos) (s.data.take s.pos) b' (s.data.length + 1) s.pos s.bufferedBytes
    s.offFront n [] (by simp only [List.length_drop]; omega) hlt.symm h1 hg
    (by rw [h.buf, hls]; omega)
  rw [← hsplit] at e
  have hch2 : Chain base (s.data.take s.pos ++ l') s.off := by
    have : ∀ (k : Nat) (b : Nat) (l m : List RangeBuf) (t : Nat), Chain b l t →
        (∃ b', Chain b' (l.drop k) t ∧ Chain b' m t) → Chain b (l.take k ++ m) t := by
      intro k
      induction k with
      | zero =>
        intro b l m t hl ⟨b', e1, e2⟩
        simp only [List.drop_zero] at e1
        have : b = b' := by
          cases l with
          | nil => simp only [Chain] at hl e1; omega
          | cons c l => exact hl.1.symm.trans e1.1
        subst this; simpa using e2
      | succ k ih =>
        intro b l m t hl ⟨b', e1, e2⟩
        cases l with
        | nil =>
          simp only [Chain, List.drop_nil] at hl e1
          subst hl; subst e1; simpa using e2
        | cons c l =>
          rw [List.take_succ_cons]
          exact ⟨hl.1, ih _ l m t hl.2 ⟨b', by simpa using e1, e2⟩⟩
    exact this s.pos base s.data l' s.off hch ⟨b', h1, E.chain⟩
  obtain ⟨f1, f2, f3, f4⟩ := h.front
  have hnext : next' ≤ s.off := by
    have := E.next
    by_cases hb0 : bs.length = 0
    · omega
    · have := h.pend_lt ((h.pend_drop _).mp (E.was (next' - 1) (by omega) (by omega)))
      omega
  have hp' : ∀ o, Pend (s.data.take s.pos ++ l') o ↔ Pend l' o := by
    intro o
    rw [pend_append]
    exact ⟨fun h' => h'.resolve_left (not_pend_of_len h.done o), .inr⟩
  refine ⟨_, bs, _, by rw [SendBuf.emit, e]; rfl, ?_⟩
  refine ⟨⟨⟨base, hch2, hb⟩, ?_, ?_, ?_, ?_, h.max, h.maxB, ?_, ?_, h.inv, h.cap, ?_, h.fin, ?_⟩,
    E.fits, E.bytes, ?_, ?_, ?_, ?_, ?_, ?_⟩
  · intro c hc
    rcases List.mem_append.mp hc with hc | hc
    · exact h.good c (List.mem_of_mem_take hc)
    · exact E.good c hc
  · intro c hc
    simp only [List.take_append, List.mem_append, hlt] at hc
    rcases hc with hc | hc
    · exact h.done c (List.mem_of_mem_take hc)
    · exact E.done c (by have : s.pos + k - s.pos = k := by omega
                         rwa [this] at hc)
  · simp only [List.length_append, hlt]; have := E.kle; omega
  · simp only [lens_append]; have := E.lens; have := h.buf; omega
  · have := h.emit; exact Nat.max_le.mpr ⟨this, hnext⟩
  · intro c hc
    have hM := E.mark s.emitOff (fun c hc => h.mark c (List.mem_of_mem_drop hc))
    rcases List.mem_append.mp hc with hc | hc
    · have := h.mark c (List.mem_of_mem_take hc)
      refine Nat.le_trans this (Nat.max_le.mpr ⟨?_, Nat.le_max_right _ _⟩)
      exact Nat.le_trans (Nat.le_max_left _ _) (Nat.le_max_left _ _)
    · exact hM c hc
  · intro r hr; exact Nat.le_trans (h.ackB r hr) (Nat.le_max_left _ _)
  · rcases h.state with hs | hs
    · exact .inl hs
    · refine .inr ⟨?_, hs.2.1, ?_, hs.2.2.2⟩
      · have := E.same
        have hd := hs.1
        simp only [hd, List.drop_nil, List.length_nil] at this
        simp [hd, List.eq_nil_of_length_eq_zero this]
      · rw [hs.2.2.1]; exact Nat.max_eq_left hnext
  · rw [E.next]
  · rw [← E.next]; exact hnext
  · rw [E.next]
  · have := E.lens; have := h.buf; simp only; omega
  · intro o
    simp only
    rw [hp', E.pend, h.pend_drop, E.next]
  · intro a b
    have hm := h.max
    exact E.progress a rfl b (by omega)

/-! ### Writing -/

/-- What a successful `write` or `append_buf` does: `n` of the `len` bytes offered
were taken. -/
structure Took (s : SendBuf) (W d : Bytes) (len : Nat) (fin : Bool) (s' : SendBuf) (n : Nat) :
    Prop where
  inv : SInv s' (W ++ d.take n)
  amount : n = Nat.min len (s.maxData - s.off)
  le : n ≤ d.length
  dead : (s.error ≠ none ∨ s.shutdown = true ∨ s.finOff ≠ none) → n = 0 ∧ len = 0 ∧ fin = true
  finOff : s'.finOff = if fin && n == len then some (s.off + n) else s.finOff
  fields : s' = { s with data := s'.data, bufferedBytes := s'.bufferedBytes, off := s.off + n,
                         finOff := s'.finOff }
  count : s'.bufferedBytes = s.bufferedBytes + n
  pend : ∀ o, Pend s'.data o ↔ Pend s.data o ∨ (s.off ≤ o ∧ o < s.off + n)

theorem reserve_spec {s : SendBuf} {W : Bytes} (h : SInv s W) (len : Nat) (fin : Bool) :
    (s.error = none → s.finOff = none → ∃ r, s.reserveForWrite len fin = .ok r) ∧
    (s.reserveForWrite len fin ≠ .error .panic) ∧
    (∀ r, s.reserveForWrite len fin = .ok r →
      r = (if fin && decide (len ≤ s.maxData - s.off) then { s with finOff := some (s.off + len) }
           else s, Nat.min len (s.maxData - s.off), fin && decide (len ≤ s.maxData - s.off)) ∧
      s.error = none ∧ (s.finOff = none ∨ (len = 0 ∧ fin = true))) := by
  have hm := h.max
  have he := h.emit
  have ha := h.ackOff_le
  simp only [reserveForWrite, cap]
  cases her : s.error with
  | some e => simp [bind, Except.bind]
  | none =>
    simp only [if_pos hm, bind, Except.bind]
    have key : (if len > s.maxData - s.off then (s.maxData - s.off, false) else (len, fin)) =
        (Nat.min len (s.maxData - s.off), fin && decide (len ≤ s.maxData - s.off)) := by
      split
      · have : Nat.min len (s.maxData - s.off) = s.maxData - s.off := Nat.min_eq_right (by omega)
        have h2 : ¬ len ≤ s.maxData - s.off := by omega
        rw [this]; simp [h2]
      · have : Nat.min len (s.maxData - s.off) = len := Nat.min_eq_left (by omega)
        have h2 : len ≤ s.maxData - s.off := by omega
        rw [this]; simp [h2]
    rw [key]
    simp only
    generalize hfin' : (fin && decide (len ≤ s.maxData - s.off)) = fin'
    have hmin : Nat.min len (s.maxData - s.off) ≤ len := Nat.min_le_left _ _
    generalize Nat.min len (s.maxData - s.off) = n at *
    have hack : ∀ (s1 : SendBuf), s1.ackOff = s.ackOff →
        (if s1.ackOff ≥ s.off + len then (Except.ok (s1, 0, fin') : Except QErr _)
          else .ok (s1, n, fin')) = .ok (s1, n, fin') := by
      intro s1 e1
      split
      · rename_i hge
        have : n = 0 := by omega
        rw [this]
      · rfl
    rw [hack _ (by split <;> rfl)]
    cases hf : s.finOff with
    | none => simp
    | some F =>
      have hF := h.fin F hf
      subst hF
      simp only [Option.any_some, decide_eq_true_eq, Bool.and_eq_true, Bool.not_eq_true']
      refine ⟨by simp, ?_, ?_⟩
      · split
        · simp
        · split <;> simp
      · intro r hr
        split at hr
        · simp at hr
        · split at hr
          · simp at hr
          · simp only [Except.ok.injEq] at hr
            refine ⟨hr.symm, trivial, .inr ⟨by omega, ?_⟩⟩
            rename_i h1 h2
            have : fin' = true := by
              by_cases hq : fin' = true
              · exact hq
              · exact absurd ⟨by omega, by simpa using hq⟩ h2
            rw [this] at hfin'
            simp at hfin'
            exact hfin'.1

/-- Appending reserved bytes. -/
theorem append_took {s : SendBuf} {W d : Bytes} {len : Nat} {fin : Bool} (h : SInv s W)
    (hlen : len ≤ d.length)
    {r : SendBuf × Nat × Bool} (hr : s.reserveForWrite len fin = .ok r) (hr0 : r.2.1 ≠ 0)
    {cs : List Bytes} (hcs : cs.flatten = d.take r.2.1) (hpos : ∀ c ∈ cs, 0 < c.length) :
    ∃ s', appendChunks r.2.2 r.1 r.2.1 cs = .ok s' ∧ Took s W d len fin s' r.2.1 := by
  obtain ⟨he, h1, h2⟩ := (reserve_spec h len fin).2.2 r hr
  obtain ⟨n, hn⟩ : ∃ n, n = Nat.min len (s.maxData - s.off) := ⟨_, rfl⟩
  rw [← hn] at he
  subst he
  simp only at *
  have hmin1 : n ≤ len := by rw [hn]; exact Nat.min_le_left _ _
  have hmin2 : n ≤ s.maxData - s.off := by rw [hn]; exact Nat.min_le_right _ _
  have hfin0 : s.finOff = none := by
    rcases h2 with h2 | h2
    · exact h2
    · omega
  have hst : s.error = none ∧ s.shutdown = false ∧ s.off = W.length := by
    rcases h.state with hs | hs
    · exact hs
    · rw [hfin0] at hs; simp at hs
  have hm := h.max
  obtain ⟨base, hch, hb⟩ := h.chain
  have hfl : cs.flatten.length = n := by rw [hcs, List.length_take]; omega
  obtain ⟨fin', hf'⟩ : ∃ f, f = (fin && decide (len ≤ s.maxData - s.off)) := ⟨_, rfl⟩
  rw [← hf']
  have hfeq : fin' = (fin && n == len) := by
    rw [hf', hn]
    by_cases hle : len ≤ s.maxData - s.off
    · simp [hle]
    · have : Nat.min len (s.maxData - s.off) ≠ len := by
        intro hq
        have := Nat.min_le_right len (s.maxData - s.off)
        rw [show min len (s.maxData - s.off) = Nat.min len (s.maxData - s.off) from rfl] at this
        omega
      simp [hle, this]
  obtain ⟨s1, hs1⟩ : ∃ s1, s1 = (if fin' = true then { s with finOff := some (s.off + len) } else s) :=
    ⟨_, rfl⟩
  rw [← hs1]
  have e1 : s1 = { s with finOff := s1.finOff } := by rw [hs1]; split <;> rfl
  have d1 : s1.data = s.data := by rw [e1]
  have o1 : s1.off = s.off := by rw [e1]
  have b1 : s1.bufferedBytes = s.bufferedBytes := by rw [e1]
  obtain ⟨s', ext, e, es, i1, i2, i3, i4, i5⟩ := appendChunks_spec (fin := fin') cs s1 W base hpos
    (by rw [d1, o1]; exact hch) (by rw [d1]; exact h.good) (by rw [o1]; exact hst.2.2)
  rw [hfl] at e es i3 i5
  rw [o1] at i5
  refine ⟨s', e, ?_⟩
  have hd' : s'.data = s.data ++ ext := by rw [es]; simp only [d1]
  have hb' : s'.bufferedBytes = s.bufferedBytes + n := by rw [es]; simp only [b1]
  have hf1 : s'.finOff = if (fin && n == len) = true then some (s.off + n) else s.finOff := by
    rw [es]; simp only
    rw [hs1, hfeq]
    split
    · rename_i hq; simp at hq; rw [hq.2]
    · rfl
  have hfields : s' = { s with data := s'.data, bufferedBytes := s'.bufferedBytes,
                               off := s.off + n, finOff := s'.finOff } := by
    rw [es, e1]
  have ho' : s'.off = s.off + n := by rw [hfields]
  have q1 : s'.ackOff = s.ackOff := by rw [hfields]; rfl
  have q2 : s'.pos = s.pos := by rw [hfields]
  have q3 : s'.maxData = s.maxData := by rw [hfields]
  have q4 : s'.emitOff = s.emitOff := by rw [hfields]
  have q5 : s'.acked = s.acked := by rw [hfields]
  have q6 : s'.error = s.error := by rw [hfields]
  have q7 : s'.shutdown = s.shutdown := by rw [hfields]
  refine ⟨⟨⟨base, i1, by rw [q1]; exact hb⟩, ?_, ?_, ?_, ?_, by omega, by rw [q3]; exact h.maxB, ?_, ?_,
    by rw [q5]; exact h.inv, by rw [q5]; exact h.cap, by rw [q5, q4]; exact h.ackB, ?_, ?_⟩,
    hn, by omega, ?_, hf1, hfields, hb', ?_⟩
  · rw [← hcs]; exact i2
  · rw [q2, hd', List.take_append_of_le_length h.posLe]; exact h.done
  · rw [q2, hd', List.length_append]; have := h.posLe; omega
  · rw [hb', hd', lens_append, i3, h.buf]
  · rw [q4, ho']; have := h.emit; omega
  · intro c hc
    rw [hd'] at hc
    rw [q4]
    rcases List.mem_append.mp hc with hc | hc
    · exact h.mark c hc
    · rw [i4 c hc]; exact Nat.le_max_right _ _
  · intro F hF
    rw [hf1] at hF
    split at hF
    · simp at hF; omega
    · rw [hfin0] at hF; simp at hF
  · refine .inl ⟨q6.trans hst.1, q7.trans hst.2.1, ?_⟩
    rw [ho', List.length_append, List.length_take, hst.2.2]; omega
  · intro hx
    rw [hst.1, hst.2.1, hfin0] at hx; simp at hx
  · intro o
    rw [hd', pend_append, i5]

/-- Nothing reserved: at most the final size changes. -/
theorem nothing_took {s : SendBuf} {W d : Bytes} {len : Nat} {fin : Bool} (h : SInv s W)
    {r : SendBuf × Nat × Bool} (hr : s.reserveForWrite len fin = .ok r) (hr0 : r.2.1 = 0) :
    Took s W d len fin r.1 0 := by
  obtain ⟨he, h1, h2⟩ := (reserve_spec h len fin).2.2 r hr
  have hm := h.max
  rw [he] at hr0
  simp only at hr0
  have hfinOff : r.1.finOff = if (fin && 0 == len) = true then some (s.off + 0) else s.finOff := by
    rw [he]
    by_cases hz : len = 0
    · subst hz
      cases fin <;> simp
    · have : ¬ len ≤ s.maxData - s.off := by
        intro hq
        have := Nat.min_eq_left hq
        rw [show min len (s.maxData - s.off) = Nat.min len (s.maxData - s.off) from rfl] at this
        omega
      have h0 : (0 == len) = false := by simp; omega
      simp [this, h0]
  have hfl : r.1 = { s with finOff := r.1.finOff } := by
    rw [he]; simp only; split <;> rfl
  have hdead : (s.error ≠ none ∨ s.shutdown = true ∨ s.finOff ≠ none) →
      (0 : Nat) = 0 ∧ len = 0 ∧ fin = true := by
    intro hx
    refine ⟨rfl, ?_⟩
    rcases h2 with h2 | h2
    · rcases h.state with hs | hs
      · rw [hs.1, hs.2.1, h2] at hx; simp at hx
      · rw [h2] at hs; simp at hs
    · exact h2
  have hFoff : ∀ F, r.1.finOff = some F → F = s.off := by
    intro F hF
    rw [hfinOff] at hF
    split at hF
    · simp at hF; omega
    · exact h.fin F hF
  have hdead2 : s.finOff ≠ none → r.1.finOff = s.finOff := by
    intro hx
    have := hdead (.inr (.inr hx))
    rw [hfinOff, this.2.1, this.2.2]
    cases hf : s.finOff with
    | none => exact absurd hf hx
    | some F => simp [h.fin F hf]
  refine ⟨?_, hr0.symm, by omega, hdead, hfinOff, ?_, ?_, ?_⟩
  · simp only [List.take_zero, List.append_nil]
    rw [hfl]
    refine ⟨h.chain, h.good, h.done, h.posLe, h.buf, h.max, h.maxB, h.emit, h.mark, h.inv, h.cap,
      h.ackB, hFoff, ?_⟩
    rcases h.state with hs | hs
    · exact .inl hs
    · refine .inr ⟨hs.1, ?_, hs.2.2⟩
      have := hdead2 (by rw [hs.2.1]; simp)
      simp only [this]; exact hs.2.1
  · rw [hfl]; simp
  · rw [hfl]; simp
  · intro o; rw [hfl]; simp only; constructor
    · exact .inl
    · rintro (h | h)
      · exact h
      · omega

theorem write_spec {s : SendBuf} {W : Bytes} (h : SInv s W) (d : Bytes) (fin : Bool) :
    (∃ s' n, s.write d fin = .ok (s', n) ∧ Took s W d d.length fin s' n) ∨
    (∃ e, s.write d fin = .error e ∧ e ≠ .panic ∧ (s.error ≠ none ∨ s.finOff ≠ none)) := by
  simp only [write]
  cases hr : s.reserveForWrite d.length fin with
  | error e =>
    refine .inr ⟨e, rfl, ?_, ?_⟩
    · rintro rfl; exact (reserve_spec h d.length fin).2.1 hr
    · by_cases h1 : s.error = none
      · by_cases h2 : s.finOff = none
        · obtain ⟨r, hr'⟩ := (reserve_spec h d.length fin).1 h1 h2
          rw [hr] at hr'; simp at hr'
        · exact .inr h2
      · exact .inl h1
  | ok r =>
    obtain ⟨s1, n, f⟩ := r
    simp only [bind, Except.bind]
    by_cases hn : n = 0
    · rw [if_pos hn]
      exact .inl ⟨s1, 0, rfl, nothing_took h hr hn⟩
    · rw [if_neg hn]
      have hcs := chunks_spec (n := sendBufferSize) (by decide) (d.take n).length (d.take n)
        (Nat.le_refl _)
      obtain ⟨s', e, T⟩ := append_took h (Nat.le_refl _) hr hn hcs.1 hcs.2
      simp only at e
      rw [e]
      exact .inl ⟨s', n, rfl, T⟩

theorem appendBuf_spec {s : SendBuf} {W : Bytes} (h : SInv s W) (d : Bytes) (cap : Nat)
    (fin : Bool) :
    (∃ s' n r, s.appendBuf d cap fin = .ok (s', n, r) ∧
      Took s W d (Nat.min cap d.length) fin s' n ∧
      (r = if n < d.length then some (d.drop n) else if n = 0 then some d else none)) ∨
    (∃ e, s.appendBuf d cap fin = .error e ∧ e ≠ .panic ∧ (s.error ≠ none ∨ s.finOff ≠ none)) := by
  simp only [appendBuf]
  rw [show min cap d.length = Nat.min cap d.length from rfl]
  cases hr : s.reserveForWrite (Nat.min cap d.length) fin with
  | error e =>
    refine .inr ⟨e, rfl, ?_, ?_⟩
    · rintro rfl; exact (reserve_spec h _ fin).2.1 hr
    · by_cases h1 : s.error = none
      · by_cases h2 : s.finOff = none
        · obtain ⟨r, hr'⟩ := (reserve_spec h (Nat.min cap d.length) fin).1 h1 h2
          rw [hr] at hr'; simp at hr'
        · exact .inr h2
      · exact .inl h1
  | ok r =>
    obtain ⟨s1, n, f⟩ := r
    simp only [bind, Except.bind]
    by_cases hn : n = 0
    · rw [if_pos hn]
      refine .inl ⟨s1, 0, some d, rfl, nothing_took h hr hn, ?_⟩
      split <;> simp
    · rw [if_neg hn]
      have hle := Nat.min_le_right cap d.length
      have hn' := (reserve_spec h (Nat.min cap d.length) fin).2.2 _ hr
      have hnl : n ≤ d.length := by
        have : n = Nat.min (Nat.min cap d.length) (s.maxData - s.off) := by
          have := congrArg (fun r => r.2.1) hn'.1
          exact this
        rw [this]
        exact Nat.le_trans (Nat.min_le_left _ _) (Nat.min_le_right _ _)
      have hlt : (d.take n).length = n := by rw [List.length_take]; omega
      obtain ⟨s', e, T⟩ := append_took (cs := [d.take n]) h hle hr hn (by simp)
        (by simp only [List.mem_singleton, forall_eq]; omega)
      simp only at e
      rw [e]
      refine .inl ⟨s', n, _, rfl, T, ?_⟩
      by_cases hh : n < d.length
      · simp [hh]
      · simp [hh, hn]

/-! ### Acknowledgement -/

/-- Inserting an acknowledged range that was sent. -/
theorem acked_insert {a : RangeSet} {E lo hi : Nat} (hi1 : Ranges.Inv a)
    (hc : a.capacity = usizeMax) (hB : ∀ r ∈ a.ranges, r.2 ≤ E) (hE : E < 2 ^ 62) (h1 : lo ≤ hi)
    (h2 : hi ≤ E) :
    ∃ a', a.insert (lo, hi) = some a' ∧ Ranges.Inv a' ∧ a'.capacity = usizeMax ∧
      (∀ r ∈ a'.ranges, r.2 ≤ E) ∧ a'.ranges ≠ [] ∧
      (∀ n, Mem n a'.ranges ↔ Mem n a.ranges ∨ (lo ≤ n ∧ n < hi)) ∧
      ackOffOf a.ranges ≤ ackOffOf a'.ranges := by
  have hl := norm_length_le hi1.1 (A := 0) (B := E) (by simp) hB (by omega)
  have hlt : a.ranges.length < a.capacity := by rw [hc]; simp only [usizeMax]; omega
  obtain ⟨a', ha⟩ := insert_isSome (st := a) (item := (lo, hi)) (.inl hlt)
  obtain ⟨i1, i2, i3⟩ := insert_spec hi1 h1 ha
  have i3 : a'.ranges = ins lo hi a.ranges := by
    rcases i3 with h | h
    · exact h
    · have := h.1; omega
  have hm : ∀ n, Mem n a'.ranges ↔ Mem n a.ranges ∨ (lo ≤ n ∧ n < hi) := by
    intro n; rw [i3, ins_mem h1 hi1.1, or_comm]
  refine ⟨a', ha, i1, i2.trans hc, ?_, ?_, hm, ?_⟩
  · rw [i3]; exact ins_bound h2 hB
  · rw [i3]; exact ins_ne_nil _ _ _
  · exact ackOffOf_mono hi1.1 i1.1 (fun n hn => (hm n).mpr (.inl hn))

/-- What `ack_and_drop` does. -/
structure Acked (s : SendBuf) (W : Bytes) (lo hi : Nat) (s' : SendBuf) (dropped : Nat) : Prop where
  inv : SInv s' W
  mem : ∀ n, Mem n s'.acked.ranges ↔ Mem n s.acked.ranges ∨ (lo ≤ n ∧ n < hi)
  some : s'.acked.ranges ≠ []
  fields : s' = { s with data := s'.data, pos := s'.pos, bufferedBytes := s'.bufferedBytes,
                         acked := s'.acked }
  count : s'.bufferedBytes + dropped = s.bufferedBytes
  pend : ∀ o, Pend s'.data o → Pend s.data o
  keep : ∀ o, Pend s.data o → ¬ Mem o s'.acked.ranges → Pend s'.data o

theorem ackAndDrop_spec {s : SendBuf} {W : Bytes} (h : SInv s W) {off len : Nat}
    (hs : off + len ≤ s.emitOff) :
    ∃ s' n, s.ackAndDrop off len = .ok (s', n) ∧ Acked s W off (off + len) s' n := by
  have hE : s.emitOff < 2 ^ 62 := by have := h.emit; have := h.max; have := h.maxB; omega
  obtain ⟨a, ha, i1, i2, i3, i4, i5, i6⟩ := acked_insert h.inv h.cap h.ackB hE (lo := off)
    (hi := off + len) (by omega) hs
  obtain ⟨base, hch, hb⟩ := h.chain
  rw [SendBuf.ackOff_eq] at hb
  have hA := ackOffOf_spec i1.1
  have hst : ∀ d : List RangeBuf, (s.data = [] → d = []) →
      ((s.error = none ∧ s.shutdown = false ∧ s.off = W.length) ∨
      (d = [] ∧ s.finOff = some s.off ∧ s.emitOff = s.off ∧ ackOffOf a.ranges = s.off ∧
        a.ranges ≠ [] ∧ (s.error ≠ none ∨ s.shutdown = true) ∧ s.off ≤ W.length ∧ W.length ≤ s.maxData)) := by
    intro d hd
    rcases h.state with hs | hs
    · exact .inl hs
    · refine .inr ⟨hd hs.1, hs.2.1, hs.2.2.1, ?_, i4, hs.2.2.2.2.2⟩
      have h1 := ackOffOf_le i3
      have h2 := hs.2.2.2.1
      rw [SendBuf.ackOff_eq] at h2
      have := hs.2.2.1; omega
  have same : ∃ s' n, (Except.ok ({ s with acked := a }, 0) : Except QErr (SendBuf × Nat)) = .ok (s', n) ∧
      Acked s W off (off + len) s' n := by
    refine ⟨_, 0, rfl, ⟨⟨base, hch, ?_⟩, h.good, h.done, h.posLe, h.buf, h.max, h.maxB, h.emit,
      h.mark, i1, i2, i3, h.fin, hst _ id⟩, i5, i4, rfl, rfl, fun o h => h, fun o h _ => h⟩
    rw [SendBuf.ackOff_eq]; simp only; omega
  simp only [ackAndDrop, ack, ha, bind, Except.bind]
  split
  · exact same
  split
  · exact same
  split
  · exact same
  rename_i hk
  obtain ⟨base', j1, j2, j3, j4, j5, j6⟩ := drop_spec (A := ackOffOf a.ranges) s.data base hch
    h.good _ rfl
  rw [SendBuf.ackOff_eq] at hk ⊢
  simp only at hk ⊢
  generalize (s.data.takeWhile (droppable (ackOffOf a.ranges))).length = k at *
  have hbuf := h.buf
  have hsum : (List.map RangeBuf.len (List.take k s.data)).sum = lens (s.data.take k) := rfl
  rw [hsum]
  refine ⟨_, _, rfl, ⟨⟨base', j1, ?_⟩, ?_, ?_, ?_, ?_, h.max, h.maxB, h.emit, ?_, i1, i2, i3,
    h.fin, hst _ (by intro hd; simp [hd])⟩, i5, i4, rfl, ?_, ?_, ?_⟩
  · rw [SendBuf.ackOff_eq]; simp only; omega
  · intro c hc; exact h.good c (List.mem_of_mem_drop hc)
  · intro c hc
    simp only at hc
    have : c ∈ s.data.take s.pos := by
      rw [List.take_drop] at hc
      by_cases hp : s.pos ≤ k
      · have e0 : k + (s.pos - k) = k := by omega
        rw [e0] at hc
        simp at hc
      · have e0 : k + (s.pos - k) = s.pos := by omega
        rw [e0] at hc
        exact List.mem_of_mem_drop hc
    exact h.done c this
  · simp only [List.length_drop]; have := h.posLe; omega
  · simp only; omega
  · intro c hc; exact h.mark c (List.mem_of_mem_drop hc)
  · simp only; omega
  · rintro o ⟨c, hc, h1⟩; exact ⟨c, List.mem_of_mem_drop hc, h1⟩
  · intro o ho hn
    refine j6 o ho ?_
    by_cases hlt : o < ackOffOf a.ranges
    · exact absurd (hA.1 o hlt) hn
    · omega

/-! ### Retransmission -/

/-- What `retransmit` does. -/
structure Requeue (s : SendBuf) (W : Bytes) (lo hi : Nat) (s' : SendBuf) (n : Nat) : Prop where
  inv : SInv s' W
  fields : s' = { s with data := s'.data, pos := s'.pos, bufferedBytes := s'.bufferedBytes }
  count : s'.bufferedBytes = s.bufferedBytes + n
  pend : ∀ o, Pend s.data o → Pend s'.data o
  only : ∀ o, Pend s'.data o → Pend s.data o ∨ (lo ≤ o ∧ o < hi)
  again : ∀ o, lo ≤ o → o < hi → o < s.off → ¬ Mem o s.acked.ranges → Pend s'.data o

theorem retransmit_spec {s : SendBuf} {W : Bytes} (h : SInv s W) (off len : Nat) :
    ∃ s' n, s.retransmit off len = .ok (s', n) ∧ Requeue s W off (off + len) s' n := by
  obtain ⟨base, hch, hb⟩ := h.chain
  have hA := ackOffOf_spec h.inv.1
  have hge : ∀ o, ¬ Mem o s.acked.ranges → s.ackOff ≤ o := by
    intro o hn
    by_cases hlt : o < s.ackOff
    · exact absurd (hA.1 o hlt) hn
    · omega
  simp only [retransmit]
  split
  · rename_i hd
    have hd : s.data = [] := by simpa using hd
    refine ⟨s, 0, rfl, h, rfl, rfl, fun o h => h, fun o h => .inl h, fun o h1 h2 h3 h4 => ?_⟩
    have := hge o h4
    rw [hd] at hch
    simp only [Chain] at hch; omega
  split
  · refine ⟨s, 0, rfl, h, rfl, rfl, fun o h => h, fun o h => .inl h, fun o h1 h2 h3 h4 => ?_⟩
    have := hge o h4; omega
  rename_i hd _
  obtain ⟨l', pos', r, e, R⟩ := retransmitLoop_spec (lo := off) (hi := off + len) (by omega) s.data
    base 0 s.pos s.bufferedBytes 0 hch h.good
  rw [e]
  simp only [bind, Except.bind, Nat.zero_add]
  refine ⟨_, r, rfl, ⟨⟨base, R.chain, hb⟩, R.good, ?_, ?_, ?_, h.max, h.maxB, h.emit, ?_, h.inv,
    h.cap, h.ackB, h.fin, ?_⟩, rfl, rfl, ?_, ?_, ?_⟩
  · have := R.done (by simpa using h.done)
    simpa using this
  · simp only; have := R.pos_le; have := R.longer; have := h.posLe; omega
  · simp only; rw [R.lens, h.buf]
  · exact R.mark s.emitOff h.mark
  · rcases h.state with hs | hs
    · exact .inl hs
    · simp [hs.1] at hd
  · intro o ho; exact (R.pend o).mpr (.inl ho)
  · intro o ho
    rcases (R.pend o).mp ho with h | h
    · exact .inl h
    · exact .inr ⟨h.1, h.2.1⟩
  · intro o h1 h2 h3 h4
    have := hge o h4
    exact (R.pend o).mpr (.inr ⟨h1, h2, by omega, h3⟩)

/-! ### Reset -/

/-- What abandoning the stream does. -/
structure Cut (s : SendBuf) (W : Bytes) (s' : SendBuf) : Prop where
  inv : SInv s' W
  data : s'.data = []
  off : s'.off = s.emitOff
  emitOff : s'.emitOff = s.emitOff
  finOff : s'.finOff = some s.emitOff
  maxData : s'.maxData = s.maxData
  dead : s'.error ≠ none ∨ s'.shutdown = true
  buf : s'.bufferedBytes = 0

theorem reset_spec {s : SendBuf} {W : Bytes} (h : SInv s W) :
    ∃ s', s.reset = .ok (s', s.emitOff, s.off - s.emitOff) ∧
      s'.error = s.error ∧ s'.shutdown = s.shutdown ∧
      (∀ t : SendBuf, (t.error ≠ none ∨ t.shutdown = true) →
        t = { s' with error := t.error, shutdown := t.shutdown } → Cut s W t) := by
  have hE : s.emitOff < 2 ^ 62 := by have := h.emit; have := h.max; have := h.maxB; omega
  obtain ⟨f1, f2, f3, f4⟩ := h.front
  have hmax : max s.offFront s.emitOff = s.emitOff := by omega
  obtain ⟨a, ha, i1, i2, i3, i4, i5, i6⟩ := acked_insert h.inv h.cap h.ackB hE (lo := 0)
    (hi := s.emitOff) (by omega) (Nat.le_refl _)
  have hA := ackOffOf_spec i1.1
  have hAeq : ackOffOf a.ranges = s.emitOff := by
    have h1 := ackOffOf_le i3
    by_cases hlt : ackOffOf a.ranges < s.emitOff
    · exact absurd ((i5 _).mpr (.inr ⟨by omega, hlt⟩)) hA.2
    · omega
  simp only [reset, hmax, ack, Nat.zero_add, ha, bind, Except.bind]
  refine ⟨_, rfl, rfl, rfl, ?_⟩
  intro t ht et
  simp only at et
  have hw := h.wlen
  have hem := h.emit
  have hmx := h.max
  obtain ⟨te, hte⟩ : ∃ x, x = t.error := ⟨_, rfl⟩
  obtain ⟨ts, hts⟩ : ∃ x, x = t.shutdown := ⟨_, rfl⟩
  rw [← hte, ← hts] at et ht
  subst et
  refine ⟨⟨⟨s.emitOff, rfl, ?_⟩, by simp, by simp, by simp, rfl, ?_, h.maxB, ?_, by simp, i1, i2, i3, ?_,
    .inr ⟨rfl, rfl, rfl, hAeq, i4, ht, ?_⟩⟩, rfl, rfl, rfl, rfl, rfl, ht, rfl⟩
  · rw [SendBuf.ackOff_eq]; simp only; omega
  · simp only; omega
  · simp
  · intro F hF; simp only [Option.some.injEq] at hF; exact hF.symm
  · have hw := h.wmax; exact ⟨by simp only; omega, hw⟩

theorem stop_spec {s : SendBuf} {W : Bytes} (h : SInv s W) (code : Nat) :
    (s.error ≠ none ∧ s.stop code = .error .done) ∨
    (s.error = none ∧ ∃ s', s.stop code = .ok (s', s.emitOff, s.off - s.emitOff) ∧ Cut s W s' ∧
      s'.error = some code ∧ s'.shutdown = s.shutdown) := by
  cases he : s.error with
  | some e => exact .inl ⟨by simp, by simp [stop, he]⟩
  | none =>
    obtain ⟨s', e, e1, e2, C⟩ := reset_spec h
    refine .inr ⟨rfl, { s' with error := some code }, ?_, C _ (by simp) rfl, rfl, e2⟩
    simp [stop, he, e, bind, Except.bind]

theorem reset_shutdown (s : SendBuf) (b : Bool) :
    SendBuf.reset { s with shutdown := b } =
      s.reset.map (fun r => ({ r.1 with shutdown := b }, r.2)) := by
  simp only [reset, offFront, ack, bind, Except.bind]
  cases s.acked.insert (0, 0 + max (firstUnsent s.off (List.drop s.pos s.data)) s.emitOff) <;> rfl

theorem shutdown_spec {s : SendBuf} {W : Bytes} (h : SInv s W) :
    (s.shutdown = true ∧ s.shutdownWrite = .error .done) ∨
    (s.shutdown = false ∧ ∃ s', s.shutdownWrite = .ok (s', s.emitOff, s.off - s.emitOff) ∧
      Cut s W s' ∧ s'.shutdown = true ∧ s'.error = s.error) := by
  cases he : s.shutdown with
  | true => exact .inl ⟨rfl, by simp [shutdownWrite, he]⟩
  | false =>
    obtain ⟨s', e, e1, e2, C⟩ := reset_spec h
    refine .inr ⟨rfl, { s' with shutdown := true }, ?_, C _ (by simp) rfl, rfl, e1⟩
    simp only [shutdownWrite, he, Bool.false_eq_true, if_false]
    rw [reset_shutdown, e]; rfl

theorem updateMax_spec {s : SendBuf} {W : Bytes} (h : SInv s W) {m : Nat} (hm : m < 2 ^ 62) :
    SInv (s.updateMaxData m) W := by
  have := h.max
  have := h.maxB
  refine ⟨h.chain, h.good, h.done, h.posLe, h.buf, by simp only [updateMaxData]; omega,
    by simp only [updateMaxData]; omega, h.emit, h.mark, h.inv, h.cap, h.ackB, h.fin, ?_⟩
  rcases h.state with hs | ⟨h1, h2, h3, h4, h5, h6, h7, h8⟩
  · exact .inl hs
  · exact .inr ⟨h1, h2, h3, h4, h5, h6, h7, by simp only [updateMaxData]; omega⟩

/-! ### Completion -/

theorem complete_spec {s : SendBuf} {W : Bytes} (h : SInv s W) :
    s.isComplete = true ↔ ∃ F, s.finOff = some F ∧ s.acked.ranges ≠ [] ∧
      ∀ o, o < F → Mem o s.acked.ranges := by
  simp only [isComplete, RangeSet.eqRange]
  cases hf : s.finOff with
  | none => simp
  | some F =>
    have hF := h.fin F hf
    have hB : ∀ r ∈ s.acked.ranges, r.2 ≤ F := by
      intro r hr
      have := h.ackB r hr
      have := h.emit; omega
    simp only [Option.any_some, beq_iff_eq, Option.some.injEq, exists_eq_left']
    constructor
    · intro he
      rw [he]
      refine ⟨by simp, fun o ho => ⟨(0, F), by simp, by simp, ho⟩⟩
    · rintro ⟨h1, h2⟩
      by_cases h0 : F = 0
      · subst h0; exact norm_zero h.inv.1 hB h1
      · exact norm_full h.inv.1 (by omega) hB h2

end SendBuf
end Stream
end Verif
