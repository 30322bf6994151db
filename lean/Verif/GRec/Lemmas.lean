import Verif.GRec.Model

/-! How ACK processing and loss detection move packets out of the list of open ones. -/

namespace Verif.GRec

open Verif.Rec (Epoch Status Rtt Bif optLt pow2 idleSpace hitsSkip lastOf granularity initialPacketThreshold maxPacketThreshold maxPtoProbes)

variable {σ : Type}

/-- The packets of a space are in order of their numbers. -/
def Sorted (l : List Pk) : Prop := l.Pairwise fun a b => a.pn < b.pn

/-- The bytes in flight among some packets. -/
def wt (l : List (Nat × Info)) : Nat := (l.map fun p => if p.2.inFlight = true then p.2.size else 0).sum

/-- The number of packets in flight among some packets. -/
def cnt (l : List (Nat × Info)) : Int := (l.filter fun p => p.2.inFlight).length

/-- The frames of some packets. -/
def framesOf (l : List (Nat × Info)) : List Fr := l.flatMap fun p => p.2.frames

/-- The numbers of the packets declared lost and not acknowledged. -/
def lostOf : List Pk → List Nat
  | [] => []
  | p :: l =>
    match p.st with
    | .lost => p.pn :: lostOf l
    | _ => lostOf l

/-- Whether a packet number lies in a range. -/
def inR (lo hi pn : Nat) : Bool := decide (lo ≤ pn) && decide (pn < hi)

theorem wt_nil : wt [] = 0 := rfl
theorem wt_cons (x : Nat × Info) (l : List (Nat × Info)) : wt (x :: l) = (if x.2.inFlight = true then x.2.size else 0) + wt l := by
  simp [wt]
theorem wt_append (l m : List (Nat × Info)) : wt (l ++ m) = wt l + wt m := by simp [wt]
theorem cnt_nil : cnt [] = 0 := rfl
theorem cnt_cons (x : Nat × Info) (l : List (Nat × Info)) : cnt (x :: l) = (if x.2.inFlight = true then 1 else 0) + cnt l := by
  unfold cnt
  rw [List.filter_cons]
  split
  · rw [List.length_cons]; omega
  · omega
theorem cnt_append (l m : List (Nat × Info)) : cnt (l ++ m) = cnt l + cnt m := by
  simp [cnt]
theorem framesOf_append (l m : List (Nat × Info)) : framesOf (l ++ m) = framesOf l ++ framesOf m := by simp [framesOf]
theorem wt_perm {l m : List (Nat × Info)} (h : l.Perm m) : wt l = wt m := (h.map _).sum_nat
theorem cnt_perm {l m : List (Nat × Info)} (h : l.Perm m) : cnt l = cnt m := by
  unfold cnt; rw [(h.filter _).length_eq]

theorem openOf_append : ∀ (l m : List Pk), openOf (l ++ m) = openOf l ++ openOf m
  | [], _ => rfl
  | p :: l, m => by
    cases hp : p.st <;> simp [openOf, hp, openOf_append l m]

theorem openOf_mem {x : Nat × Info} : ∀ {l : List Pk}, x ∈ openOf l → (⟨x.1, .sent x.2⟩ : Pk) ∈ l
  | [], h => by simp [openOf] at h
  | p :: l, h => by
    obtain ⟨pn, st⟩ := p
    cases st with
    | sent i =>
      simp only [openOf, List.mem_cons] at h
      rcases h with h | h
      · subst h; exact List.mem_cons_self ..
      · exact List.mem_cons_of_mem _ (openOf_mem h)
    | acked => exact List.mem_cons_of_mem _ (openOf_mem (by simpa [openOf] using h))
    | lost => exact List.mem_cons_of_mem _ (openOf_mem (by simpa [openOf] using h))

theorem mem_openOf {x : Nat × Info} : ∀ {l : List Pk}, (⟨x.1, .sent x.2⟩ : Pk) ∈ l → x ∈ openOf l
  | [], h => by simp at h
  | p :: l, h => by
    rcases List.mem_cons.1 h with h' | h'
    · subst h'; exact List.mem_cons_self ..
    · obtain ⟨pn, st⟩ := p
      cases st with
      | sent i => exact List.mem_cons_of_mem _ (mem_openOf h')
      | acked => exact mem_openOf (l := l) h'
      | lost => exact mem_openOf (l := l) h'

theorem lostOf_mem {n : Nat} : ∀ {l : List Pk}, n ∈ lostOf l → (⟨n, .lost⟩ : Pk) ∈ l
  | [], h => by simp [lostOf] at h
  | p :: l, h => by
    obtain ⟨pn, st⟩ := p
    cases st with
    | lost =>
      simp only [lostOf, List.mem_cons] at h
      rcases h with h | h
      · subst h; exact List.mem_cons_self ..
      · exact List.mem_cons_of_mem _ (lostOf_mem h)
    | acked => exact List.mem_cons_of_mem _ (lostOf_mem (by simpa [lostOf] using h))
    | sent i => exact List.mem_cons_of_mem _ (lostOf_mem (by simpa [lostOf] using h))

theorem openOf_sorted {l : List Pk} (h : Sorted l) : (openOf l).Pairwise fun a b => a.1 < b.1 := by
  induction l with
  | nil => exact List.Pairwise.nil
  | cons p l ih =>
    have h' := List.pairwise_cons.1 h
    obtain ⟨pn, st⟩ := p
    cases st with
    | sent i =>
      refine List.pairwise_cons.2 ⟨?_, ih h'.2⟩
      intro x hx
      exact h'.1 _ (openOf_mem hx)
    | acked => exact ih h'.2
    | lost => exact ih h'.2

theorem openOf_drain : ∀ (l : List Pk), openOf (drain l) = openOf l
  | [] => rfl
  | p :: l => by cases hp : p.st <;> simp [drain, openOf, hp, openOf_drain l]

theorem drain_sub : ∀ (l : List Pk), (drain l).Sublist l
  | [] => List.Sublist.refl _
  | p :: l => by
    cases hp : p.st
    · simp only [drain, hp]; exact List.Sublist.refl _
    · simp only [drain, hp]; exact (drain_sub l).cons _
    · simp only [drain, hp]; exact (drain_sub l).cons _

theorem lostOf_sub {l m : List Pk} (h : l.Sublist m) : (lostOf l).Sublist (lostOf m) := by
  induction h with
  | slnil => exact List.Sublist.refl _
  | cons p _ ih =>
    obtain ⟨pn, st⟩ := p
    cases st
    · exact ih
    · exact ih
    · exact ih.cons _
  | cons_cons p _ ih =>
    obtain ⟨pn, st⟩ := p
    cases st
    · exact ih
    · exact ih
    · exact ih.cons_cons _

/-! ### Acknowledged ranges -/

/-- What acknowledging the packets `A` and the lost ones `S` does to the results. -/
structure AckDelta (a b : AckAcc) (A : List (Nat × Info)) (S : List Nat) : Prop where
  newly : b.newly = a.newly ++ A
  count : b.count = a.count - cnt A
  bytes : b.bytes = a.bytes + wt A
  frames : b.frames = a.frames ++ framesOf A
  spurious : b.spurious = a.spurious ++ S
  eliciting : b.eliciting = (a.eliciting || A.any fun x => x.2.ackEliciting)

theorem AckDelta.refl (a : AckAcc) : AckDelta a a [] [] :=
  ⟨(List.append_nil _).symm, (Int.sub_zero _).symm, rfl, (List.append_nil _).symm, (List.append_nil _).symm, by simp⟩

theorem AckDelta.trans {a b c : AckAcc} {A B : List (Nat × Info)} {S T : List Nat} (h : AckDelta a b A S) (k : AckDelta b c B T) :
    AckDelta a c (A ++ B) (S ++ T) := by
  refine ⟨?_, ?_, ?_, ?_, ?_, ?_⟩
  · rw [k.newly, h.newly, List.append_assoc]
  · rw [k.count, h.count, cnt_append]; omega
  · rw [k.bytes, h.bytes, wt_append]; omega
  · rw [k.frames, h.frames, framesOf_append, List.append_assoc]
  · rw [k.spurious, h.spurious, List.append_assoc]
  · rw [k.eliciting, h.eliciting, List.any_append, Bool.or_assoc]

theorem ackNew_delta (a : AckAcc) (pn : Nat) (i : Info) : AckDelta a (ackNew a pn i) [(pn, i)] [] := by
  refine ⟨rfl, ?_, ?_, ?_, (List.append_nil _).symm, ?_⟩
  · simp only [ackNew, cnt_cons, cnt_nil]; split <;> omega
  · simp only [ackNew, wt_cons, wt_nil]; split <;> omega
  · simp [ackNew, framesOf]
  · simp [ackNew]

theorem ackSpurious_delta (largest : Nat) (a : AckAcc) (pn : Nat) : AckDelta a (ackSpurious largest a pn) [] [pn] :=
  ⟨(List.append_nil _).symm, (Int.sub_zero _).symm, rfl, (List.append_nil _).symm, rfl, by simp [ackSpurious]⟩

theorem filter_none {l : List Pk} {lo hi : Nat} (h : ∀ p ∈ l, hi ≤ p.pn) :
    (openOf l).filter (fun x => inR lo hi x.1) = [] ∧ (openOf l).filter (fun x => !inR lo hi x.1) = openOf l ∧
    (lostOf l).filter (fun x => inR lo hi x) = [] ∧ (lostOf l).filter (fun x => !inR lo hi x) = lostOf l := by
  refine ⟨?_, ?_, ?_, ?_⟩
  · rw [List.filter_eq_nil_iff]
    intro x hx
    have := h _ (openOf_mem hx)
    dsimp only at this
    simp only [inR, Bool.and_eq_true, decide_eq_true_eq]; omega
  · rw [List.filter_eq_self]
    intro x hx
    have := h _ (openOf_mem hx)
    dsimp only at this
    simp only [inR, Bool.not_eq_true', Bool.and_eq_false_iff, decide_eq_false_iff_not]; omega
  · rw [List.filter_eq_nil_iff]
    intro x hx
    have := h _ (lostOf_mem hx)
    dsimp only at this
    simp only [inR, Bool.and_eq_true, decide_eq_true_eq]; omega
  · rw [List.filter_eq_self]
    intro x hx
    have := h _ (lostOf_mem hx)
    dsimp only at this
    simp only [inR, Bool.not_eq_true', Bool.and_eq_false_iff, decide_eq_false_iff_not]; omega

/-- One acknowledged range takes the open packets in it out of the open ones. -/
theorem ackRange_spec (largest lo hi : Nat) : ∀ (l : List Pk) (a : AckAcc), Sorted l →
    AckDelta a (ackRange largest lo hi a l).1 ((openOf l).filter fun x => inR lo hi x.1) ((lostOf l).filter fun x => inR lo hi x) ∧
    openOf (ackRange largest lo hi a l).2 = (openOf l).filter (fun x => !inR lo hi x.1) ∧
    lostOf (ackRange largest lo hi a l).2 = (lostOf l).filter (fun x => !inR lo hi x) ∧
    (ackRange largest lo hi a l).2.map Pk.pn = l.map Pk.pn
  | [], a, _ => ⟨AckDelta.refl a, rfl, rfl, rfl⟩
  | p :: l, a, h => by
    have h' := List.pairwise_cons.1 h
    unfold ackRange
    by_cases h1 : p.pn < lo
    · rw [if_pos h1]
      obtain ⟨i1, i2, i3, i4⟩ := ackRange_spec largest lo hi l a h'.2
      have hn : inR lo hi p.pn = false := by
        simp only [inR, Bool.and_eq_false_iff, decide_eq_false_iff_not]; omega
      obtain ⟨pn, st⟩ := p
      dsimp only at hn
      refine ⟨?_, ?_, ?_, by simp [i4]⟩
      · cases st <;> simpa [openOf, lostOf, hn] using i1
      · cases st <;> simp [openOf, hn, i2]
      · cases st <;> simp [lostOf, hn, i3]
    · rw [if_neg h1]
      by_cases h2 : p.pn < hi
      · rw [if_pos h2]
        obtain ⟨i1, i2, i3, i4⟩ := ackRange_spec largest lo hi l (ackPkt largest a p) h'.2
        have hn : inR lo hi p.pn = true := by
          simp only [inR, Bool.and_eq_true, decide_eq_true_eq]; omega
        obtain ⟨pn, st⟩ := p
        dsimp only at hn
        refine ⟨?_, ?_, ?_, by simp [i4]⟩
        · cases st with
          | sent i => simpa [openOf, lostOf, hn] using (ackNew_delta a pn i).trans i1
          | acked => simpa [openOf, lostOf, hn, ackPkt] using i1
          | lost => simpa [openOf, lostOf, hn] using (ackSpurious_delta largest a pn).trans i1
        · cases st <;> simp [openOf, hn, i2]
        · cases st <;> simp [lostOf, hn, i3]
      · rw [if_neg h2]
        have hf : ∀ q ∈ p :: l, hi ≤ q.pn := by
          intro q hq
          rcases List.mem_cons.1 hq with hq | hq
          · subst hq; omega
          · have := h'.1 q hq; omega
        obtain ⟨f1, f2, f3, f4⟩ := filter_none (lo := lo) hf
        refine ⟨?_, f2.symm, f4.symm, rfl⟩
        rw [f1, f3]
        exact AckDelta.refl a

theorem Sorted.of_map {l m : List Pk} (h : Sorted l) (he : m.map Pk.pn = l.map Pk.pn) : Sorted m := by
  have h1 : (l.map Pk.pn).Pairwise (· < ·) := List.pairwise_map.2 h
  rw [← he] at h1
  exact List.pairwise_map.1 h1

/-- Several acknowledged ranges. `A` are the open packets in the ranges. -/
theorem ackRanges_spec (largest : Nat) (skip : Option Nat) : ∀ (rs : List (Nat × Nat)) (a : AckAcc) (l : List Pk), Sorted l →
    ∃ A S, AckDelta a (ackRanges largest skip rs a l).2.1 A S ∧
      (openOf l).Perm (openOf (ackRanges largest skip rs a l).2.2 ++ A) ∧
      (openOf (ackRanges largest skip rs a l).2.2).Sublist (openOf l) ∧
      (lostOf l).Perm (lostOf (ackRanges largest skip rs a l).2.2 ++ S) ∧
      (ackRanges largest skip rs a l).2.2.map Pk.pn = l.map Pk.pn ∧
      (∀ x ∈ A, ∃ r ∈ rs, inR r.1 r.2 x.1 = true) ∧
      (∀ x ∈ S, ∃ r ∈ rs, inR r.1 r.2 x = true) ∧
      ((ackRanges largest skip rs a l).1 = false →
        (∀ x ∈ openOf (ackRanges largest skip rs a l).2.2, ∀ r ∈ rs, inR r.1 r.2 x.1 = false) ∧
        (∀ x ∈ lostOf (ackRanges largest skip rs a l).2.2, ∀ r ∈ rs, inR r.1 r.2 x = false))
  | [], a, l, _ => by
    refine ⟨[], [], AckDelta.refl a, ?_, List.Sublist.refl _, ?_, rfl, by simp, by simp, ?_⟩
    · simp [ackRanges]
    · simp [ackRanges]
    · intro _; exact ⟨(by simp), (by simp)⟩
  | r :: rs, a, l, h => by
    unfold ackRanges
    by_cases hs : hitsSkip skip r.1 r.2 = true
    · rw [if_pos hs]
      refine ⟨[], [], AckDelta.refl a, ?_, List.Sublist.refl _, ?_, rfl, by simp, by simp, ?_⟩
      · simp
      · simp
      · intro hc; exact absurd hc (by simp)
    · rw [if_neg hs]
      obtain ⟨i1, i2, i3, i4⟩ := ackRange_spec largest r.1 r.2 l a h
      obtain ⟨A, S, d, p, sb, q, m, ha, hS, hok⟩ := ackRanges_spec largest skip rs (ackRange largest r.1 r.2 a l).1
        (ackRange largest r.1 r.2 a l).2 (h.of_map i4)
      refine ⟨_, _, i1.trans d, ?_, ?_, ?_, m.trans i4, ?_, ?_, ?_⟩
      · have p' := p
        rw [i2] at p'
        have hp := (List.filter_append_perm (fun x : Nat × Info => inR r.1 r.2 x.1) (openOf l)).symm
        refine hp.trans ?_
        refine (List.Perm.append_left _ p').trans ?_
        refine (List.perm_append_comm_assoc _ _ _).trans ?_
        exact List.Perm.refl _
      · rw [i2] at sb
        exact sb.trans List.filter_sublist
      · have q' := q
        rw [i3] at q'
        have hp := (List.filter_append_perm (fun x : Nat => inR r.1 r.2 x) (lostOf l)).symm
        refine hp.trans ?_
        refine (List.Perm.append_left _ q').trans ?_
        exact List.perm_append_comm_assoc _ _ _
      · intro x hx
        rcases List.mem_append.1 hx with hx | hx
        · exact ⟨r, List.mem_cons_self .., (List.mem_filter.1 hx).2⟩
        · obtain ⟨r', hr', hi⟩ := ha x hx
          exact ⟨r', List.mem_cons_of_mem _ hr', hi⟩
      · intro x hx
        rcases List.mem_append.1 hx with hx | hx
        · exact ⟨r, List.mem_cons_self .., (List.mem_filter.1 hx).2⟩
        · obtain ⟨r', hr', hi⟩ := hS x hx
          exact ⟨r', List.mem_cons_of_mem _ hr', hi⟩
      · intro hf
        obtain ⟨o1, o2⟩ := hok hf
        constructor
        · intro x hx r' hr'
          rcases List.mem_cons.1 hr' with hr' | hr'
          · subst hr'
            have := sb.subset hx
            rw [i2] at this
            simpa using (List.mem_filter.1 this).2
          · exact o1 x hx r' hr'
        · intro x hx r' hr'
          rcases List.mem_cons.1 hr' with hr' | hr'
          · subst hr'
            have : x ∈ lostOf (ackRange largest r'.1 r'.2 a l).2 := q.symm.subset (List.mem_append_left _ hx)
            rw [i3] at this
            simpa using (List.mem_filter.1 this).2
          · exact o2 x hx r' hr'

/-! ### Lost packets -/

/-- The test for a lost packet. -/
def lostTest (delay : Nat) (thresh : Option Nat) (now largest : Nat) (x : Nat × Info) : Bool :=
  decide (x.1 ≤ largest) && isLost delay thresh now largest x.1 x.2

/-- A probe of path MTU discovery in flight, whose loss is not told as a loss. -/
def quietLoss (x : Nat × Info) : Bool := x.2.inFlight && x.2.probe

/-- The loss time when these packets stay open. -/
def nextLoss (delay largest : Nat) : List (Nat × Info) → Option Nat
  | [] => none
  | x :: _ => if x.1 ≤ largest then some (x.2.timeSent + delay) else none

/-- What declaring the packets `A` lost does to the results. -/
structure LossDelta (a b : LossAcc) (A : List (Nat × Info)) : Prop where
  lost : b.lost = a.lost ++ A
  count : b.count = a.count - cnt A
  bytes : b.bytes + b.probeBytes = a.bytes + a.probeBytes + wt A
  frames : b.frames = a.frames ++ framesOf A
  probes : b.probes = a.probes ++ (A.filter quietLoss).map Prod.fst
  newly : b.newly = a.newly ++ (A.filter fun x => !quietLoss x).map fun x => (x.1, x.2.size)
  lostBytes : b.bytes = a.bytes + wt (A.filter fun x => !quietLoss x)

theorem LossDelta.refl (a : LossAcc) : LossDelta a a [] :=
  ⟨(List.append_nil _).symm, (Int.sub_zero _).symm, rfl, (List.append_nil _).symm, (List.append_nil _).symm, (List.append_nil _).symm, rfl⟩

theorem LossDelta.trans {a b c : LossAcc} {A B : List (Nat × Info)} (h : LossDelta a b A) (k : LossDelta b c B) :
    LossDelta a c (A ++ B) := by
  refine ⟨?_, ?_, ?_, ?_, ?_, ?_, ?_⟩
  · rw [k.lost, h.lost, List.append_assoc]
  · rw [k.count, h.count, cnt_append]; omega
  · rw [k.bytes, h.bytes, wt_append]; omega
  · rw [k.frames, h.frames, framesOf_append, List.append_assoc]
  · rw [k.probes, h.probes, List.filter_append, List.map_append, List.append_assoc]
  · rw [k.newly, h.newly, List.filter_append, List.map_append, List.append_assoc]
  · rw [k.lostBytes, h.lostBytes, List.filter_append, wt_append]; omega

theorem loseAcc_delta (a : LossAcc) (pn : Nat) (i : Info) : LossDelta a (loseAcc a pn i) [(pn, i)] := by
  unfold loseAcc
  cases hf : i.inFlight <;> cases hp : i.probe <;>
    refine ⟨rfl, ?_, ?_, ?_, ?_, ?_, ?_⟩ <;>
    simp [cnt_cons, cnt_nil, wt_cons, wt_nil, framesOf, quietLoss, hf, hp] <;> omega

theorem loseAcc_lossTime (a : LossAcc) (pn : Nat) (i : Info) : (loseAcc a pn i).lossTime = a.lossTime := by
  unfold loseAcc; split
  · split <;> rfl
  · rfl

/-- The open packets declared lost are those before the first one that is not. -/
theorem loseLoop_spec (delay : Nat) (thresh : Option Nat) (now largest : Nat) : ∀ (l : List Pk) (a : LossAcc), Sorted l →
    LossDelta a (loseLoop delay thresh now largest a l).1 ((openOf l).takeWhile (lostTest delay thresh now largest)) ∧
    openOf (loseLoop delay thresh now largest a l).2 = (openOf l).dropWhile (lostTest delay thresh now largest) ∧
    (a.lossTime = none →
      (loseLoop delay thresh now largest a l).1.lossTime =
        nextLoss delay largest ((openOf l).dropWhile (lostTest delay thresh now largest))) ∧
    (loseLoop delay thresh now largest a l).2.map Pk.pn = l.map Pk.pn ∧
    (∀ n ∈ lostOf (loseLoop delay thresh now largest a l).2, n ∈ lostOf l ∨ n ∈ ((openOf l).takeWhile (lostTest delay thresh now largest)).map Prod.fst)
  | [], a, _ => ⟨LossDelta.refl a, rfl, fun h => h, rfl, fun _ h => Or.inl h⟩
  | p :: l, a, h => by
    have h' := List.pairwise_cons.1 h
    unfold loseLoop
    by_cases h1 : p.pn > largest
    · rw [if_pos h1]
      have hall : ∀ x ∈ openOf (p :: l), largest < x.1 := by
        intro x hx
        have hm := openOf_mem hx
        rcases List.mem_cons.1 hm with hm | hm
        · have : x.1 = p.pn := congrArg Pk.pn hm
          omega
        · have := h'.1 _ hm
          dsimp only at this; omega
      generalize openOf (p :: l) = q at hall
      cases q with
      | nil => exact ⟨LossDelta.refl a, rfl, fun h => h, rfl, fun _ h => Or.inl h⟩
      | cons x q =>
        have hx := hall x (List.mem_cons_self ..)
        have ht : lostTest delay thresh now largest x = false := by
          simp only [lostTest, Bool.and_eq_false_iff, decide_eq_false_iff_not]; omega
        rw [List.takeWhile_cons_of_neg (by simp [ht]), List.dropWhile_cons_of_neg (by simp [ht])]
        refine ⟨LossDelta.refl a, rfl, ?_, rfl, fun _ h => Or.inl h⟩
        intro ha
        rw [ha, nextLoss, if_neg (by omega)]
    · rw [if_neg h1]
      obtain ⟨pn, st⟩ := p
      dsimp only at h1
      cases st with
      | sent i =>
        dsimp only
        by_cases h2 : isLost delay thresh now largest pn i = true
        · rw [if_pos h2]
          obtain ⟨i1, i2, i3, i4, i5⟩ := loseLoop_spec delay thresh now largest l (loseAcc a pn i) h'.2
          have ht : lostTest delay thresh now largest (pn, i) = true := by
            simp only [lostTest, Bool.and_eq_true, decide_eq_true_eq]; exact ⟨by omega, h2⟩
          rw [show openOf (⟨pn, .sent i⟩ :: l) = (pn, i) :: openOf l from rfl]
          rw [List.takeWhile_cons_of_pos ht, List.dropWhile_cons_of_pos ht]
          refine ⟨(loseAcc_delta a pn i).trans i1, i2, ?_, by simp [i4], ?_⟩
          · intro ha
            exact i3 ((loseAcc_lossTime a pn i).trans ha)
          · intro n hn
            simp only [lostOf, List.mem_cons] at hn
            rcases hn with hn | hn
            · right; subst hn; exact List.mem_cons_self ..
            · rcases i5 n hn with hn | hn
              · exact Or.inl hn
              · right; exact List.mem_cons_of_mem _ hn
        · rw [if_neg h2]
          have ht : lostTest delay thresh now largest (pn, i) = false := by
            simp only [lostTest, Bool.and_eq_false_iff]; exact Or.inr (by simpa using h2)
          rw [show openOf (⟨pn, .sent i⟩ :: l) = (pn, i) :: openOf l from rfl]
          rw [List.takeWhile_cons_of_neg (by simp [ht]), List.dropWhile_cons_of_neg (by simp [ht])]
          refine ⟨⟨(List.append_nil _).symm, (Int.sub_zero _).symm, rfl, (List.append_nil _).symm, (List.append_nil _).symm, (List.append_nil _).symm, rfl⟩, rfl, ?_, rfl, fun _ h => Or.inl h⟩
          intro _
          show some _ = nextLoss delay largest ((pn, i) :: openOf l)
          rw [nextLoss, if_pos (by show pn ≤ largest; omega)]
      | acked =>
        obtain ⟨i1, i2, i3, i4, i5⟩ := loseLoop_spec delay thresh now largest l a h'.2
        exact ⟨i1, i2, i3, by simp [i4], i5⟩
      | lost =>
        obtain ⟨i1, i2, i3, i4, i5⟩ := loseLoop_spec delay thresh now largest l a h'.2
        refine ⟨i1, i2, i3, by simp [i4], ?_⟩
        intro n hn
        simp only [lostOf, List.mem_cons] at hn ⊢
        rcases hn with hn | hn
        · exact Or.inl (Or.inl hn)
        · rcases i5 n hn with hn | hn
          · exact Or.inl (Or.inr hn)
          · exact Or.inr hn

theorem least_spec {l : List Pk} (h : Sorted l) (o : Option Nat) : ∀ x ∈ openOf l, leastIn o l ≤ x.1 := by
  induction l with
  | nil => intro x hx; simp [openOf] at hx
  | cons p l ih =>
    have h' := List.pairwise_cons.1 h
    obtain ⟨pn, st⟩ := p
    intro x hx
    cases st with
    | sent i =>
      simp only [leastIn]
      rcases List.mem_cons.1 (openOf_mem hx) with hm | hm
      · have : x.1 = pn := congrArg Pk.pn hm
        omega
      · have := h'.1 _ hm
        dsimp only at this; omega
    | acked => exact ih h'.2 x hx
    | lost => exact ih h'.2 x hx

end Verif.GRec
