import Verif.Rec.Model

/-! Facts about the loops of loss recovery. -/

namespace Verif.Rec

variable {σ : Type}

/-- Whether a packet is in flight and its fate open. -/
def Sent.open (p : Sent) : Bool := p.inFlight && p.live

/-- The number and size of the packets in flight. -/
def outstanding (l : List Sent) : List (Nat × Nat) := (l.filter Sent.open).map fun p => (p.pn, p.size)

/-- The bytes of a list of packets. -/
def weight (l : List (Nat × Nat)) : Nat := (l.map Prod.snd).sum

@[simp] theorem outstanding_nil : outstanding [] = [] := rfl

theorem outstanding_cons (p : Sent) (l : List Sent) :
    outstanding (p :: l) = if p.open = true then (p.pn, p.size) :: outstanding l else outstanding l := by
  unfold outstanding
  rw [List.filter_cons]
  split <;> simp

theorem outstanding_append (l m : List Sent) : outstanding (l ++ m) = outstanding l ++ outstanding m := by
  simp [outstanding]

@[simp] theorem weight_nil : weight [] = 0 := rfl
@[simp] theorem weight_cons (x : Nat × Nat) (l : List (Nat × Nat)) : weight (x :: l) = x.2 + weight l := by simp [weight]
theorem weight_append (l m : List (Nat × Nat)) : weight (l ++ m) = weight l + weight m := by simp [weight]

theorem mem_outstanding {l : List Sent} {x : Nat × Nat} (h : x ∈ outstanding l) : ∃ p ∈ l, p.open = true ∧ (p.pn, p.size) = x := by
  unfold outstanding at h
  obtain ⟨p, hp, he⟩ := List.mem_map.1 h
  exact ⟨p, (List.mem_filter.1 hp).1, (List.mem_filter.1 hp).2, he⟩

/-- The list is in order of packet numbers. -/
def Sorted (l : List Sent) : Prop := l.Pairwise fun p q => p.pn < q.pn

/-- What no call changes in a sent packet. -/
def Sent.static (p : Sent) : Nat × Nat × Nat × Bool × Bool × Bool × Bool :=
  (p.pn, p.size, p.timeSent, p.ackEliciting, p.inFlight, p.hasData, p.probe)

theorem sorted_of_static {l m : List Sent} (h : l.map Sent.static = m.map Sent.static) (hs : Sorted m) : Sorted l := by
  have e : ∀ k : List Sent, Sorted k ↔ (k.map Sent.static).Pairwise fun a b => a.1 < b.1 := by
    intro k
    unfold Sorted
    rw [List.pairwise_map]
    rfl
  rw [e, h, ← e]; exact hs

/-! ### Acknowledgements -/

theorem ackPkt_static (now largest : Nat) (a : AckAcc) (p : Sent) : (ackPkt now largest a p).2.static = p.static := by
  unfold ackPkt
  repeat' split
  all_goals rfl

theorem ackPkt_closed (now largest : Nat) (a : AckAcc) (p : Sent) : (ackPkt now largest a p).2.open = false := by
  unfold ackPkt
  split
  · rename_i h
    unfold Sent.open Sent.live
    cases ht : p.timeAcked with
    | none => simp [ht] at h
    | some t => simp
  · split <;> simp [Sent.open, Sent.live]

theorem ackPkt_count (now largest : Nat) (a : AckAcc) (p : Sent) :
    (ackPkt now largest a p).1.count = a.count - (if p.open = true then 1 else 0) ∧
    (ackPkt now largest a p).1.bytes = a.bytes + (if p.open = true then p.size else 0) := by
  unfold ackPkt
  unfold Sent.open Sent.live
  split
  · rename_i h
    have : p.timeAcked.isNone = false := by cases ht : p.timeAcked <;> simp_all
    simp [this]
  · rename_i h
    have h1 : p.timeAcked.isNone = true := by cases ht : p.timeAcked <;> simp_all
    split
    · rename_i h2
      have : p.timeLost.isNone = false := by cases ht : p.timeLost <;> simp_all
      simp [this, ackSpurious]
    · rename_i h2
      have : p.timeLost.isNone = true := by cases ht : p.timeLost <;> simp_all
      cases hf : p.inFlight <;> simp [this, h1, ackNew, hf]

theorem ackRange_static (now largest lo hi : Nat) : ∀ (l : List Sent) (a : AckAcc),
    (ackRange now largest lo hi a l).2.map Sent.static = l.map Sent.static
  | [], _ => rfl
  | p :: l, a => by
    unfold ackRange
    split
    · simp [ackRange_static now largest lo hi l a]
    · split
      · rfl
      · simp [ackRange_static now largest lo hi l, ackPkt_static]

/-- Outside a range. -/
def outside (lo hi : Nat) (x : Nat × Nat) : Bool := !decide (lo ≤ x.1 ∧ x.1 < hi)

theorem ackRange_out (now largest lo hi : Nat) : ∀ (l : List Sent) (a : AckAcc), Sorted l →
    outstanding (ackRange now largest lo hi a l).2 = (outstanding l).filter (outside lo hi)
  | [], _, _ => rfl
  | p :: l, a, hs => by
    have hs' : Sorted l := (List.pairwise_cons.1 hs).2
    unfold ackRange
    split
    · rename_i h
      have ho : outside lo hi (p.pn, p.size) = true := by simp [outside]; omega
      rw [outstanding_cons, outstanding_cons]
      split
      · rw [List.filter_cons, if_pos ho]; simp [ackRange_out now largest lo hi l a hs']
      · simp [ackRange_out now largest lo hi l a hs']
    · split
      · rename_i h1 h2
        symm
        rw [List.filter_eq_self]
        intro x hx
        obtain ⟨q, hq, _, he⟩ := mem_outstanding hx
        have hge : hi ≤ q.pn := by
          rcases List.mem_cons.1 hq with rfl | hq
          · exact h2
          · have := (List.pairwise_cons.1 hs).1 q hq; omega
        subst he
        simp [outside]; omega
      · rename_i h1 h2
        have ho : outside lo hi (p.pn, p.size) = false := by simp [outside]; omega
        dsimp only
        rw [outstanding_cons, if_neg (by rw [ackPkt_closed]; simp), outstanding_cons, ackRange_out now largest lo hi l _ hs']
        split
        · rw [List.filter_cons, if_neg (by rw [ho]; simp)]
        · rfl

theorem ackRange_count (now largest lo hi : Nat) : ∀ (l : List Sent) (a : AckAcc),
    (ackRange now largest lo hi a l).1.count - ((outstanding (ackRange now largest lo hi a l).2).length : Int) =
      a.count - ((outstanding l).length : Int) ∧
    (ackRange now largest lo hi a l).1.bytes + weight (outstanding (ackRange now largest lo hi a l).2) =
      a.bytes + weight (outstanding l)
  | [], _ => ⟨rfl, rfl⟩
  | p :: l, a => by
    unfold ackRange
    split
    · have ih := ackRange_count now largest lo hi l a
      rw [outstanding_cons, outstanding_cons]
      dsimp only
      split
      · simp only [List.length_cons, weight_cons]; omega
      · exact ih
    · split
      · exact ⟨rfl, rfl⟩
      · have ih := ackRange_count now largest lo hi l (ackPkt now largest a p).1
        have hc := ackPkt_count now largest a p
        dsimp only
        rw [outstanding_cons (ackPkt now largest a p).2, if_neg (by rw [ackPkt_closed]; simp), outstanding_cons]
        split
        · rename_i ho
          simp only [ho, if_true] at hc
          simp only [List.length_cons, weight_cons]; omega
        · rename_i ho
          simp only [ho] at hc
          simp at hc
          omega

theorem ackRanges_static (now largest : Nat) (skip : Option Nat) : ∀ (rs : List (Nat × Nat)) (l : List Sent) (a : AckAcc),
    (ackRanges now largest skip rs a l).2.2.map Sent.static = l.map Sent.static
  | [], _, _ => rfl
  | r :: rs, l, a => by
    unfold ackRanges
    split
    · rfl
    · rw [ackRanges_static now largest skip rs, ackRange_static]

theorem ackRanges_count (now largest : Nat) (skip : Option Nat) : ∀ (rs : List (Nat × Nat)) (l : List Sent) (a : AckAcc),
    (ackRanges now largest skip rs a l).2.1.count - ((outstanding (ackRanges now largest skip rs a l).2.2).length : Int) =
      a.count - ((outstanding l).length : Int) ∧
    (ackRanges now largest skip rs a l).2.1.bytes + weight (outstanding (ackRanges now largest skip rs a l).2.2) =
      a.bytes + weight (outstanding l)
  | [], _, _ => ⟨rfl, rfl⟩
  | r :: rs, l, a => by
    unfold ackRanges
    split
    · exact ⟨rfl, rfl⟩
    · have h1 := ackRange_count now largest r.1 r.2 l a
      have h2 := ackRanges_count now largest skip rs (ackRange now largest r.1 r.2 a l).2 (ackRange now largest r.1 r.2 a l).1
      constructor <;> omega

/-- Outside all ranges. -/
def outsideAll (rs : List (Nat × Nat)) (x : Nat × Nat) : Bool := rs.all fun r => outside r.1 r.2 x

theorem ackRanges_out (now largest : Nat) (skip : Option Nat) : ∀ (rs : List (Nat × Nat)) (l : List Sent) (a : AckAcc), Sorted l →
    (ackRanges now largest skip rs a l).1 = false →
    outstanding (ackRanges now largest skip rs a l).2.2 = (outstanding l).filter (outsideAll rs)
  | [], l, _, _, _ => by
    show outstanding l = _
    symm
    rw [List.filter_eq_self]
    intro x _; rfl
  | r :: rs, l, a, hs, hf => by
    unfold ackRanges at hf ⊢
    split at hf
    · cases hf
    · rename_i h
      rw [if_neg h]
      rw [ackRanges_out now largest skip rs _ _ (sorted_of_static (ackRange_static ..) hs) hf, ackRange_out _ _ _ _ _ _ hs,
        List.filter_filter]
      congr 1
      funext x
      simp [outsideAll, Bool.and_comm]

/-! ### Dropping packets whose fate is decided -/

theorem drain_suffix (t : Nat) : ∀ l : List Sent, drain t l <:+ l
  | [] => List.suffix_refl _
  | p :: l => by
    unfold drain
    split
    · exact List.suffix_refl _
    · split
      · exact List.suffix_refl _
      · exact (drain_suffix t l).trans (List.suffix_cons p l)

theorem drain_mem {t : Nat} {l : List Sent} {p : Sent} (h : p ∈ drain t l) : p ∈ l := (drain_suffix t l).subset h

theorem drain_sorted {t : Nat} {l : List Sent} (h : Sorted l) : Sorted (drain t l) := h.sublist (drain_suffix t l).sublist

theorem drain_out (t : Nat) : ∀ l : List Sent, outstanding (drain t l) = outstanding l
  | [] => rfl
  | p :: l => by
    unfold drain
    split
    · rfl
    · split
      · rfl
      · rename_i h
        rw [drain_out t l, outstanding_cons, if_neg (by simp [Sent.open, h])]

/-! ### Losses -/

theorem loseLoop_static (d t now lg : Nat) : ∀ (l : List Sent) (a : LossAcc),
    (loseLoop d t now lg a l).2.map Sent.static = l.map Sent.static
  | [], _ => rfl
  | p :: l, a => by
    unfold loseLoop
    split
    · rfl
    · split
      · simp [loseLoop_static d t now lg l a]
      · split
        · simp [loseLoop_static d t now lg l, Sent.static]
        · rfl

theorem loseAcc_lost (a : LossAcc) (p : Sent) : (loseAcc a p).lost = a.lost ++ [p] := by
  unfold loseAcc
  repeat' split
  all_goals rfl

/-- What is declared lost is appended. -/
theorem loseLoop_lost (d t now lg : Nat) : ∀ (l : List Sent) (a : LossAcc),
    ∃ m, (loseLoop d t now lg a l).1.lost = a.lost ++ m ∧ m.Sublist l ∧ ∀ p ∈ m, p.live = true ∧ p.pn ≤ lg ∧ isLost d t now lg p = true
  | [], a => ⟨[], by simp [loseLoop], List.Sublist.refl _, by simp⟩
  | p :: l, a => by
    unfold loseLoop
    split
    · exact ⟨[], by simp, List.nil_sublist _, by simp⟩
    · rename_i hpn
      split
      · obtain ⟨m, h1, h2, h3⟩ := loseLoop_lost d t now lg l a
        exact ⟨m, h1, h2.cons _, h3⟩
      · rename_i hl
        split
        · rename_i hx
          obtain ⟨m, h1, h2, h3⟩ := loseLoop_lost d t now lg l (loseAcc a p)
          refine ⟨p :: m, ?_, h2.cons_cons p, ?_⟩
          · show (loseLoop d t now lg (loseAcc a p) l).1.lost = _
            rw [h1, loseAcc_lost]; simp
          · intro q hq
            rcases List.mem_cons.1 hq with rfl | hq
            · exact ⟨by simpa using hl, by omega, hx⟩
            · exact h3 q hq
        · exact ⟨[], by simp, List.nil_sublist _, by simp⟩

/-- Packet number space invariant: probes are in flight. -/
def Probes (l : List Sent) : Prop := ∀ p ∈ l, p.probe = true → p.inFlight = true

theorem probes_of_static {l m : List Sent} (h : l.map Sent.static = m.map Sent.static) (hs : Probes m) : Probes l := by
  intro p hp
  have hm : p.static ∈ m.map Sent.static := by rw [← h]; exact List.mem_map_of_mem hp
  obtain ⟨q, hq, he⟩ := List.mem_map.1 hm
  have := hs q hq
  simp only [Sent.static, Prod.mk.injEq] at he
  rw [he.2.2.2.2.1, he.2.2.2.2.2.2] at this
  exact this

theorem loseAcc_count (a : LossAcc) (p : Sent) (hp : p.probe = true → p.inFlight = true) (hl : p.live = true) :
    (loseAcc a p).count = a.count - (if p.open = true then 1 else 0) ∧
    (loseAcc a p).bytes + (loseAcc a p).probeBytes = a.bytes + a.probeBytes + (if p.open = true then p.size else 0) ∧
    ((a.largest = none → a.bytes = 0) → (loseAcc a p).largest = none → (loseAcc a p).bytes = 0) := by
  unfold loseAcc Sent.open
  rw [hl]
  split
  · rename_i h
    simp [hp h]
    omega
  · split
    · rename_i h
      simp [h]
      omega
    · rename_i h
      simp [h]

theorem loseLoop_count (d t now lg : Nat) : ∀ (l : List Sent) (a : LossAcc), Probes l →
    (loseLoop d t now lg a l).1.count - ((outstanding (loseLoop d t now lg a l).2).length : Int) =
      a.count - ((outstanding l).length : Int) ∧
    (loseLoop d t now lg a l).1.bytes + (loseLoop d t now lg a l).1.probeBytes + weight (outstanding (loseLoop d t now lg a l).2) =
      a.bytes + a.probeBytes + weight (outstanding l) ∧
    ((a.largest = none → a.bytes = 0) → (loseLoop d t now lg a l).1.largest = none → (loseLoop d t now lg a l).1.bytes = 0)
  | [], _, _ => ⟨rfl, rfl, fun h => h⟩
  | p :: l, a, hp => by
    have hp' : Probes l := fun q hq => hp q (List.mem_cons_of_mem _ hq)
    unfold loseLoop
    split
    · exact ⟨rfl, rfl, fun h => h⟩
    · split
      · rename_i hl
        have ih := loseLoop_count d t now lg l a hp'
        have ho : ¬p.open = true := by simp [Sent.open, hl]
        dsimp only
        rw [outstanding_cons, if_neg ho, outstanding_cons, if_neg ho]
        exact ih
      · rename_i hl
        split
        · have ih := loseLoop_count d t now lg l (loseAcc a p) hp'
          have hc := loseAcc_count a p (hp p List.mem_cons_self) (by simpa using hl)
          dsimp only
          rw [outstanding_cons { p with frames := [], timeLost := some now }, if_neg (by simp [Sent.open, Sent.live]), outstanding_cons]
          refine ⟨?_, ?_, fun h => ih.2.2 (hc.2.2 h)⟩
          · split
            · rename_i ho
              simp only [ho, if_true] at hc
              simp only [List.length_cons]; omega
            · rename_i ho
              simp only [ho] at hc
              simp at hc
              omega
          · split
            · rename_i ho
              simp only [ho, if_true] at hc
              simp only [weight_cons]; omega
            · rename_i ho
              simp only [ho] at hc
              simp at hc
              omega
        · exact ⟨rfl, rfl, fun h => h⟩

/-- Not among the packets declared lost. -/
def notIn (m : List Sent) (x : Nat × Nat) : Bool := !(m.any fun p => p.pn == x.1)

theorem notIn_cons (p : Sent) (m : List Sent) (x : Nat × Nat) : notIn (p :: m) x = (!(p.pn == x.1) && notIn m x) := by
  simp [notIn]

theorem filter_notIn_other {m : List Sent} {l : List Sent} {p : Sent} (hs : Sorted (p :: l)) (hm : ∀ q ∈ m, q ∈ l) :
    notIn m (p.pn, p.size) = true := by
  simp only [notIn, Bool.not_eq_true', List.any_eq_false, beq_iff_eq]
  intro q hq he
  have := (List.pairwise_cons.1 hs).1 q (hm q hq)
  omega

theorem loseLoop_out (d t now lg : Nat) : ∀ (l : List Sent) (a : LossAcc), Sorted l →
    ∃ m, (loseLoop d t now lg a l).1.lost = a.lost ++ m ∧ (∀ q ∈ m, q ∈ l) ∧
      outstanding (loseLoop d t now lg a l).2 = (outstanding l).filter (notIn m)
  | [], a, _ => ⟨[], by simp [loseLoop], by simp, by simp [loseLoop]⟩
  | p :: l, a, hs => by
    have hs' : Sorted l := (List.pairwise_cons.1 hs).2
    have none' : ∀ l : List Sent, outstanding l = (outstanding l).filter (notIn []) := by
      intro l
      symm
      rw [List.filter_eq_self]
      intro x _; rfl
    unfold loseLoop
    split
    · exact ⟨[], by simp, by simp, none' _⟩
    · split
      · rename_i hl
        obtain ⟨m, h1, h2, h3⟩ := loseLoop_out d t now lg l a hs'
        have ho : ¬p.open = true := by simp [Sent.open, hl]
        refine ⟨m, h1, fun q hq => List.mem_cons_of_mem _ (h2 q hq), ?_⟩
        dsimp only
        rw [outstanding_cons, if_neg ho, outstanding_cons, if_neg ho, h3]
      · rename_i hl
        split
        · obtain ⟨m, h1, h2, h3⟩ := loseLoop_out d t now lg l (loseAcc a p) hs'
          refine ⟨p :: m, ?_, ?_, ?_⟩
          · show (loseLoop d t now lg (loseAcc a p) l).1.lost = _
            rw [h1, loseAcc_lost]; simp
          · intro q hq
            rcases List.mem_cons.1 hq with rfl | hq
            · exact List.mem_cons_self
            · exact List.mem_cons_of_mem _ (h2 q hq)
          · dsimp only
            rw [outstanding_cons { p with frames := [], timeLost := some now }, if_neg (by simp [Sent.open, Sent.live]), outstanding_cons, h3]
            have hrest : (outstanding l).filter (notIn (p :: m)) = (outstanding l).filter (notIn m) := by
              apply List.filter_congr
              intro x hx
              obtain ⟨q, hq, _, he⟩ := mem_outstanding hx
              have := (List.pairwise_cons.1 hs).1 q hq
              subst he
              rw [notIn_cons]
              have hne : (p.pn == q.pn) = false := by simp; omega
              rw [hne]; rfl
            split
            · rw [List.filter_cons, if_neg (by simp [notIn_cons]), hrest]
            · rw [hrest]
        · exact ⟨[], by simp, by simp, none' _⟩

/-! ### Spaces of a state -/

@[simp] theorem get_set_same (s : State σ) (e : Epoch) (x : Space) : (s.set e x).get e = x := by cases e <;> rfl

theorem get_set_other (s : State σ) {e e' : Epoch} (x : Space) (h : e' ≠ e) : (s.set e x).get e' = s.get e' := by
  cases e <;> cases e' <;> first | rfl | exact absurd rfl h

theorem get_set (s : State σ) (e e' : Epoch) (x : Space) : (s.set e x).get e' = if e' = e then x else s.get e' := by
  split
  · rename_i h; subst h; exact get_set_same s _ x
  · rename_i h; exact get_set_other s x h

@[simp] theorem set_flight (s : State σ) (e : Epoch) (x : Space) : (s.set e x).flight = s.flight := by cases e <;> rfl
@[simp] theorem set_rtt (s : State σ) (e : Epoch) (x : Space) : (s.set e x).rtt = s.rtt := by cases e <;> rfl
@[simp] theorem set_failed (s : State σ) (e : Epoch) (x : Space) : (s.set e x).failed = s.failed := by cases e <;> rfl
@[simp] theorem set_timer (s : State σ) (e : Epoch) (x : Space) : (s.set e x).timer = s.timer := by cases e <;> rfl
@[simp] theorem set_ptoCount (s : State σ) (e : Epoch) (x : Space) : (s.set e x).ptoCount = s.ptoCount := by cases e <;> rfl
@[simp] theorem set_pktThresh (s : State σ) (e : Epoch) (x : Space) : (s.set e x).pktThresh = s.pktThresh := by cases e <;> rfl
@[simp] theorem set_cc (s : State σ) (e : Epoch) (x : Space) : (s.set e x).cc = s.cc := by cases e <;> rfl

/-- States with the same spaces. -/
theorem get_congr {s t : State σ} (h1 : s.initial = t.initial) (h2 : s.handshake = t.handshake) (h3 : s.application = t.application)
    (e : Epoch) : s.get e = t.get e := by
  cases e
  · exact h1
  · exact h2
  · exact h3

theorem Flight.sub_bytes (b : Bif) (d now : Nat) : (b.sub d now).bytes = b.bytes - d := by
  unfold Bif.sub Bif.updateDuration
  split
  · rfl
  · split <;> rfl

theorem Flight.add_bytes (b : Bif) (d now : Nat) : (b.add d now).bytes = b.bytes + d := by
  unfold Bif.add Bif.updateDuration
  split
  · rename_i h; subst h; rfl
  · split
    · split
      · rfl
      · split <;> rfl
    · rfl

end Verif.Rec
