import Verif.Props.C132

/-!
C133. Loss detection with BBR: only overdue packets are declared lost, all of them are, and
the thresholds adapt to reordering.

* A packet is declared lost only if a packet that is not older was acknowledged (except
  packet number 0, `lost_only_partial`, `lost_unacked_false`), and if it was sent a loss
  delay ago or is behind an acknowledged packet by the packet threshold.
* After loss detection the oldest open packet of the space is not overdue, and a loss time
  is pending for it if it is below the largest acknowledged one (`oldest`). So no packet is
  overdue if packets are recorded in the order of their times (`complete_partial`). The
  recorded time is the release time of the pacer unless configured otherwise; as these may
  go back, an overdue packet may be left (`complete_false`).
* Without relaxed thresholds, the packet threshold is between 3 and 20 and never falls, and
  the time threshold is 9/8 or 10/8 (`strict_bounds`, `strict_grows`); after a spurious loss
  is recognised, no packet is declared lost for a reordering of that distance
  (`strict_adapts`). With relaxed thresholds there is no packet threshold from the first
  spurious loss on (`relaxed_adapts`), and the time threshold stays between 9/8 and 2
  (`relaxed_bounds`).
-/

namespace Verif.Props.C133

open Verif.GRec
open Verif.Rec (Epoch Status Rtt lastOf granularity initialPacketThreshold maxPacketThreshold)
open Verif.Props.C130 (quietEnv s0 done data)
open Verif.Props.C131 (open_iff sent_numbers)

variable {σ : Type}

/-! ### The thresholds -/

/-- What holds of the thresholds without relaxation. -/
def Strict (t : Thresh) : Prop := t.overhead = none ∧ (t.time = 9 ∨ t.time = 10) ∧ ∃ p, t.pkt = some p ∧ 3 ≤ p ∧ p ≤ 20

/-- What holds of relaxed thresholds. -/
def Relaxed (t : Thresh) : Prop :=
  ∃ o, t.overhead = some o ∧ 1 ≤ o ∧ o ≤ 8 ∧ t.time = 8 + o ∧ (t.pkt = some 3 ∧ o = 1 ∨ t.pkt = none)

theorem strict_spurious {t : Thresh} (h : Strict t) (n : Nat) : Strict (t.onSpurious n) ∧
    ∀ p q, t.pkt = some p → (t.onSpurious n).pkt = some q → p ≤ q ∧ Nat.min n 20 ≤ q ∧ t.time ≤ (t.onSpurious n).time := by
  obtain ⟨h1, h2, p, h3, h4, h5⟩ := h
  have he : t.onSpurious n = { t with pkt := some (Nat.max p (Nat.min n maxPacketThreshold)), time := 10 } := by
    unfold Thresh.onSpurious; rw [h1, h3]; rfl
  rw [he]
  have a1 := Nat.le_max_left p (Nat.min n maxPacketThreshold)
  have a2 := Nat.le_max_right p (Nat.min n maxPacketThreshold)
  have a3 : Nat.max p (Nat.min n maxPacketThreshold) ≤ 20 := Nat.max_le.2 ⟨h5, Nat.min_le_right n 20⟩
  refine ⟨⟨h1, Or.inr rfl, _, rfl, Nat.le_trans h4 a1, a3⟩, ?_⟩
  intro p' q hp hq
  rw [h3] at hp
  cases hp
  have hq' : Nat.max p (Nat.min n maxPacketThreshold) = q := by simpa using hq
  refine ⟨hq' ▸ a1, hq' ▸ a2, ?_⟩
  show t.time ≤ 10
  omega

theorem relaxed_spurious {t : Thresh} (h : Relaxed t) (n : Nat) : Relaxed (t.onSpurious n) ∧ (t.onSpurious n).pkt = none ∧
    t.time ≤ (t.onSpurious n).time := by
  obtain ⟨o, h1, h2, h3, h4, h5⟩ := h
  unfold Thresh.onSpurious
  rw [h1]
  dsimp only
  rcases h5 with ⟨h5, h6⟩ | h5
  · rw [if_pos (by rw [h5]; rfl)]
    exact ⟨⟨o, rfl, h2, h3, h4, Or.inr rfl⟩, rfl, Nat.le_refl _⟩
  · rw [if_neg (by rw [h5]; simp)]
    have a1 : Nat.min (o * 2) 8 ≤ 8 := Nat.min_le_right _ _
    have a2 : o ≤ Nat.min (o * 2) 8 := Nat.le_min.2 ⟨by omega, by omega⟩
    refine ⟨⟨Nat.min (o * 2) 8, rfl, by omega, a1, rfl, Or.inr h5⟩, h5, ?_⟩
    show t.time ≤ 8 + Nat.min (o * 2) 8
    omega

theorem spurious_thresh (s : State σ) (a : AckAcc) :
    (s.spurious a).thresh = match a.thresh with | none => s.thresh | some n => s.thresh.onSpurious n := rfl

/-- How a call changes the thresholds. -/
theorem step_thresh (en : Env σ) (s : State σ) (o : Op) :
    (step en s o).1.thresh = s.thresh ∨ ∃ n, (step en s o).1.thresh = s.thresh.onSpurious n := by
  by_cases hq : o.quiet = true
  · exact Or.inl (quiet_spec en s o hq).2.2.2.2.1
  · cases o with
    | send e p st now => exact Or.inl (onSent_rest en s e p st now).2.2.2.1
    | ack e rs delay st now skip =>
      show (s.onAck en e rs delay st now skip).1.thresh = _ ∨ ∃ n, (s.onAck en e rs delay st now skip).1.thresh = _
      obtain ⟨f1, f2, f3, f4, f5, f6, f7, f8, f9⟩ := set_fields s e ((s.get e).acked skip rs).2.2
      have hs : ∀ t : State σ, t.thresh = s.thresh → (t.spurious ((s.get e).acked skip rs).2.1).thresh = s.thresh ∨
          ∃ n, (t.spurious ((s.get e).acked skip rs).2.1).thresh = s.thresh.onSpurious n := by
        intro t ht
        rw [spurious_thresh]
        cases ((s.get e).acked skip rs).2.1.thresh with
        | none => exact Or.inl ht
        | some n => exact Or.inr ⟨n, by rw [ht]⟩
      rcases onAck_cases en s e rs delay st now skip with ⟨_, he⟩ | ⟨hnf, hn, he⟩ | ⟨hnf, last, hl, he⟩
      · rw [he]; exact Or.inl f5
      · rw [he]; exact hs _ f5
      · obtain ⟨t, ht⟩ : ∃ t, t = ackState en s e rs delay st now skip last := ⟨_, rfl⟩
        obtain ⟨-, -, -, -, -, -, -, -, -, -, -, -, -, g14, -⟩ := ackTail_spec en s e rs delay st now skip last ht he
        rw [g14, ht, (ackState_fields en s e rs delay st now skip last).2.2.2.2.1]
        exact hs s rfl
    | timeout st now =>
      show (s.onTimeout en st now).1.thresh = _ ∨ _
      left
      unfold State.onTimeout
      split
      · exact (detectLost_spec en s _ now).2.2.2.2.2.2.1
      · exact (onPto_spec en s st now).2.2.2.2.1
    | discard e st now => exact Or.inl (onDiscard_spec en s e st now).2.2.2.2.1
    | pathChange e now => exact Or.inl (detectLost_spec en s _ now).2.2.2.2.2.2.1
    | _ => exact absurd rfl hq

theorem run_strict (en : Env σ) : ∀ (os : List Op) (s : State σ), Strict s.thresh → Strict (run en s os).1.thresh
  | [], _, h => h
  | o :: os, s, h => by
    refine run_strict en os (step en s o).1 ?_
    rcases step_thresh en s o with h' | ⟨n, h'⟩
    · rw [h']; exact h
    · rw [h']; exact (strict_spurious h n).1

theorem run_relaxed (en : Env σ) : ∀ (os : List Op) (s : State σ), Relaxed s.thresh → Relaxed (run en s os).1.thresh
  | [], _, h => h
  | o :: os, s, h => by
    refine run_relaxed en os (step en s o).1 ?_
    rcases step_thresh en s o with h' | ⟨n, h'⟩
    · rw [h']; exact h
    · rw [h']; exact (relaxed_spurious h n).1

section
variable (en : Env σ) (t0 r d : Nat) (c : σ)

/-- **C133.** The thresholds without relaxation. -/
theorem strict_bounds (os : List Op) : Strict (run en (State.new t0 r d false c) os).1.thresh :=
  run_strict en os _ ⟨rfl, Or.inl rfl, 3, rfl, by omega, by omega⟩

/-- **C133.** They never fall. -/
theorem strict_grows (os : List Op) (o : Op) {s : State σ} (hs : s = (run en (State.new t0 r d false c) os).1) :
    ∃ p q, s.thresh.pkt = some p ∧ (step en s o).1.thresh.pkt = some q ∧ p ≤ q ∧ s.thresh.time ≤ (step en s o).1.thresh.time := by
  have h : Strict s.thresh := by rw [hs]; exact strict_bounds en t0 r d c os
  obtain ⟨h1, h2, p, h3, h4, h5⟩ := id h
  rcases step_thresh en s o with h' | ⟨n, h'⟩
  · rw [h']; exact ⟨p, p, h3, h3, Nat.le_refl _, Nat.le_refl _⟩
  · rw [h']
    obtain ⟨k, hk⟩ := strict_spurious h n
    obtain ⟨-, -, q, hq, -⟩ := k
    have := hk p q h3 hq
    exact ⟨p, q, h3, hq, this.1, this.2.2⟩

/-- **C133.** Relaxed thresholds: the time threshold is between 9/8 and 2. -/
theorem relaxed_bounds (os : List Op) : Relaxed (run en (State.new t0 r d true c) os).1.thresh ∧
    9 ≤ (run en (State.new t0 r d true c) os).1.thresh.time ∧ (run en (State.new t0 r d true c) os).1.thresh.time ≤ 16 := by
  have h : Relaxed (run en (State.new t0 r d true c) os).1.thresh :=
    run_relaxed en os _ ⟨1, rfl, by omega, by omega, rfl, Or.inl ⟨rfl, rfl⟩⟩
  obtain ⟨o, h1, h2, h3, h4, h5⟩ := id h
  exact ⟨h, by omega, by omega⟩

end

/-! ### Adapting to spurious losses -/

/-- The distance recorded is that of the first packet counted as spuriously lost. -/
def First (largest : Nat) (a : AckAcc) : Prop := a.thresh = a.spurious.head?.map fun n => largest - n + 1

theorem ackPkt_first {largest : Nat} {a : AckAcc} (h : First largest a) (p : Pk) : First largest (ackPkt largest a p) := by
  unfold ackPkt
  split
  · exact h
  · exact h
  · unfold First ackSpurious at *
    dsimp only
    rw [h]
    cases a.spurious <;> rfl

theorem ackRange_first (largest lo hi : Nat) : ∀ (l : List Pk) (a : AckAcc), First largest a → First largest (ackRange largest lo hi a l).1
  | [], _, h => h
  | p :: l, a, h => by
    unfold ackRange
    split
    · exact ackRange_first largest lo hi l a h
    · split
      · exact ackRange_first largest lo hi l _ (ackPkt_first h p)
      · exact h

theorem ackRanges_first (largest : Nat) (skip : Option Nat) : ∀ (rs : List (Nat × Nat)) (a : AckAcc) (l : List Pk), First largest a →
    First largest (ackRanges largest skip rs a l).2.1
  | [], _, _, h => h
  | r :: rs, a, l, h => by
    unfold ackRanges
    split
    · exact h
    · exact ackRanges_first largest skip rs _ _ (ackRange_first largest r.1 r.2 l a h)

theorem lostOf_sorted {l : List Pk} (h : Sorted l) : (lostOf l).Pairwise (· < ·) := by
  induction l with
  | nil => exact List.Pairwise.nil
  | cons p l ih =>
    have h' := List.pairwise_cons.1 h
    obtain ⟨pn, st⟩ := p
    cases st with
    | sent i => exact ih h'.2
    | acked => exact ih h'.2
    | lost => exact List.pairwise_cons.2 ⟨fun n hn => h'.1 _ (lostOf_mem hn), ih h'.2⟩

/-- The ranges of an ACK, lowest first. -/
def Ordered (rs : List (Nat × Nat)) : Prop := rs.Pairwise fun a b => a.2 ≤ b.1

theorem ackRanges_sorted (largest : Nat) (skip : Option Nat) : ∀ (rs : List (Nat × Nat)) (a : AckAcc) (l : List Pk), Sorted l → Ordered rs →
    a.spurious.Pairwise (· < ·) → (∀ n ∈ a.spurious, ∀ r ∈ rs, n < r.1) → (ackRanges largest skip rs a l).2.1.spurious.Pairwise (· < ·)
  | [], _, _, _, _, h, _ => h
  | r :: rs, a, l, hs, ho, h, hb => by
    unfold ackRanges
    split
    · exact h
    · obtain ⟨d1, d2, d3, d4⟩ := ackRange_spec largest r.1 r.2 l a hs
      have ho' := List.pairwise_cons.1 ho
      refine ackRanges_sorted largest skip rs _ _ (hs.of_map d4) ho'.2 ?_ ?_
      · rw [d1.spurious]
        refine List.pairwise_append.2 ⟨h, (lostOf_sorted hs).sublist List.filter_sublist, ?_⟩
        intro n hn m hm
        have := (List.mem_filter.1 hm).2
        simp only [inR, Bool.and_eq_true, decide_eq_true_eq] at this
        have := hb n hn r (List.mem_cons_self ..)
        omega
      · intro n hn r' hr'
        rw [d1.spurious] at hn
        rcases List.mem_append.1 hn with hn | hn
        · exact hb n hn r' (List.mem_cons_of_mem _ hr')
        · have := (List.mem_filter.1 hn).2
          simp only [inR, Bool.and_eq_true, decide_eq_true_eq] at this
          have := ho'.1 r' hr'
          omega

/-- What an ACK records of spurious losses. -/
theorem acked_thresh (skip : Option Nat) {rs : List (Nat × Nat)} (ho : Ordered rs) {x : Space} (h : SpaceInv x) :
    ∀ n ∈ (x.acked skip rs).2.1.spurious, ∃ m, (x.acked skip rs).2.1.thresh = some m ∧
      Nat.max (x.largestAcked.getD 0) (lastOf rs) - n + 1 ≤ m := by
  have key : ∀ b : AckAcc, b = (x.acked skip rs).2.1 → First (Nat.max (x.largestAcked.getD 0) (lastOf rs)) b ∧ b.spurious.Pairwise (· < ·) := by
    intro b hb
    unfold Space.acked at hb
    dsimp only at hb
    have h1 := ackRanges_first (Nat.max (x.largestAcked.getD 0) (lastOf rs)) skip rs
      ⟨x.inFlightCount, 0, [], none, false, [], x.ackedFrames⟩ x.sent rfl
    have h2 := ackRanges_sorted (Nat.max (x.largestAcked.getD 0) (lastOf rs)) skip rs
      ⟨x.inFlightCount, 0, [], none, false, [], x.ackedFrames⟩ x.sent h.sorted ho List.Pairwise.nil (fun n hn => nomatch hn)
    split at hb
    · rw [hb]; exact ⟨h1, h2⟩
    · rw [hb]; exact ⟨h1, h2⟩
  obtain ⟨k1, k2⟩ := key _ rfl
  intro n hn
  generalize (x.acked skip rs).2.1 = b at *
  unfold First at k1
  cases hb : b.spurious with
  | nil => rw [hb] at hn; exact nomatch hn
  | cons m l =>
    rw [hb] at k1 k2 hn
    refine ⟨_, k1, ?_⟩
    rcases List.mem_cons.1 hn with rfl | hn
    · exact Nat.le_refl _
    · have := (List.pairwise_cons.1 k2).1 n hn
      dsimp only
      omega

/-- The thresholds after an ACK. -/
theorem ack_thresh (en : Env σ) (s : State σ) (e : Epoch) (rs : List (Nat × Nat)) (delay : Nat) (st : Status) (now : Nat) (skip : Option Nat)
    (hf : (step en s (.ack e rs delay st now skip)).1.failed = false) :
    (step en s (.ack e rs delay st now skip)).2.spurious = ((s.get e).acked skip rs).2.1.spurious ∧
    (step en s (.ack e rs delay st now skip)).1.thresh =
      match ((s.get e).acked skip rs).2.1.thresh with | none => s.thresh | some n => s.thresh.onSpurious n := by
  have hf' : (s.onAck en e rs delay st now skip).1.failed = false := hf
  show (s.onAck en e rs delay st now skip).2.spurious = _ ∧ (s.onAck en e rs delay st now skip).1.thresh = _
  obtain ⟨f1, f2, f3, f4, f5, f6, f7, f8, f9⟩ := set_fields s e ((s.get e).acked skip rs).2.2
  rcases onAck_cases en s e rs delay st now skip with ⟨_, he⟩ | ⟨hnf, hn, he⟩ | ⟨hnf, last, hl, he⟩
  · rw [he] at hf'; cases hf'
  · rw [he]; refine ⟨rfl, ?_⟩
    show (State.spurious _ _).thresh = _
    rw [spurious_thresh, f5]
  · obtain ⟨t, ht⟩ : ∃ t, t = ackState en s e rs delay st now skip last := ⟨_, rfl⟩
    obtain ⟨-, -, -, -, -, -, -, -, g9, -, -, -, -, g14, -⟩ := ackTail_spec en s e rs delay st now skip last ht he
    exact ⟨g9, by rw [g14, ht, (ackState_fields en s e rs delay st now skip last).2.2.2.2.1, spurious_thresh]⟩

section
variable (en : Env σ) (t0 r d : Nat) (c : σ)

/-- **C133.** After a spurious loss is recognised, no packet is lost for being overtaken by
that distance, up to 19 packets. -/
theorem strict_adapts (os : List Op) (ha : Ascending os) (e : Epoch) (rs : List (Nat × Nat)) (ho : Ordered rs) (delay : Nat) (st : Status)
    (now : Nat) (skip : Option Nat) {s s' : State σ} {o : Out} (hs : s = (run en (State.new t0 r d false c) os).1)
    (hstep : (s', o) = step en s (.ack e rs delay st now skip)) (hf : s'.failed = false) :
    ∀ n ∈ o.spurious, ∀ q, s'.thresh.pkt = some q →
      Nat.min (Nat.max ((s.get e).largestAcked.getD 0) (lastOf rs) - n + 1) 20 ≤ q := by
  intro n hn q hq
  have hi : Inv s := by rw [hs]; exact (run_facts en os _ (new_inv t0 r d false c) ha (new_below t0 r d false c os)).1
  have h1 : s' = (step en s (.ack e rs delay st now skip)).1 := congrArg Prod.fst hstep
  have h2 : o = (step en s (.ack e rs delay st now skip)).2 := congrArg Prod.snd hstep
  rw [h1] at hf hq
  rw [h2] at hn
  obtain ⟨a1, a2⟩ := ack_thresh en s e rs delay st now skip hf
  rw [a1] at hn
  obtain ⟨m, hm, hle⟩ := acked_thresh skip ho (hi e) n hn
  rw [hm] at a2
  have hS : Strict s.thresh := by rw [hs]; exact strict_bounds en t0 r d c os
  obtain ⟨-, -, p, hp, -⟩ := id hS
  rw [a2] at hq
  have := ((strict_spurious hS m).2 p q hp hq).2.1
  refine Nat.le_trans ?_ this
  exact Nat.le_min.2 ⟨Nat.le_trans (Nat.min_le_left _ _) hle, Nat.min_le_right _ _⟩

/-- **C133.** Relaxed: after the first spurious loss that is recognised there is no packet
threshold any more. -/
theorem relaxed_adapts (os os' : List Op) (ha : Ascending os) (e : Epoch) (rs : List (Nat × Nat)) (ho : Ordered rs) (delay : Nat) (st : Status)
    (now : Nat) (skip : Option Nat) {s s' : State σ} {o : Out} (hs : s = (run en (State.new t0 r d true c) os).1)
    (hstep : (s', o) = step en s (.ack e rs delay st now skip)) (hf : s'.failed = false) (hn : o.spurious ≠ []) :
    (run en s' os').1.thresh.pkt = none := by
  have hi : Inv s := by rw [hs]; exact (run_facts en os _ (new_inv t0 r d true c) ha (new_below t0 r d true c os)).1
  have h1 : s' = (step en s (.ack e rs delay st now skip)).1 := congrArg Prod.fst hstep
  have h2 : o = (step en s (.ack e rs delay st now skip)).2 := congrArg Prod.snd hstep
  rw [h1] at hf
  rw [h2] at hn
  obtain ⟨a1, a2⟩ := ack_thresh en s e rs delay st now skip hf
  rw [a1] at hn
  obtain ⟨n, l, hnl⟩ := List.exists_cons_of_ne_nil hn
  obtain ⟨m, hm, hle⟩ := acked_thresh skip ho (hi e) n (by rw [hnl]; exact List.mem_cons_self ..)
  rw [hm, ← h1] at a2
  have hR : Relaxed s.thresh := by rw [hs]; exact (relaxed_bounds en t0 r d c os).1
  have key : ∀ (os : List Op) (s : State σ), Relaxed s.thresh → s.thresh.pkt = none → (run en s os).1.thresh.pkt = none := by
    intro os
    induction os with
    | nil => intro s _ h; exact h
    | cons o os ih =>
      intro s hr h
      refine ih (step en s o).1 ?_ ?_
      · rcases step_thresh en s o with h' | ⟨n, h'⟩
        · rw [h']; exact hr
        · rw [h']; exact (relaxed_spurious hr n).1
      · rcases step_thresh en s o with h' | ⟨n, h'⟩
        · rw [h']; exact h
        · rw [h']; exact (relaxed_spurious hr n).2.1
  obtain ⟨k1, k2, -⟩ := relaxed_spurious hR m
  exact key os' s' (by rw [a2]; exact k1) (by rw [a2]; exact k2)

end

/-! ### Which packets are declared lost -/

/-- What loss detection does in a space `x`, as it is afterwards. -/
structure Detected (delay : Nat) (thresh : Option Nat) (now : Nat) (x : Space) (lost : List (Nat × Info)) : Prop where
  only : ∀ p ∈ lost, lostTest delay thresh now (x.largestAcked.getD 0) p = true
  left : ∀ p ∈ x.live.head?, lostTest delay thresh now (x.largestAcked.getD 0) p = false
  pending : x.lossTime = nextLoss delay (x.largestAcked.getD 0) x.live

theorem lose_detected (delay : Nat) (thresh : Option Nat) (now : Nat) {x : Space} (h : SpaceInv x) :
    Detected delay thresh now (x.lose delay thresh now).2 (x.lose delay thresh now).1.lost := by
  obtain ⟨l1, l2, l3, l4, l5, l6, l7, l8, l9, l10, l11, l12, l13, l14, l15⟩ := lose_spec delay thresh now h
  refine ⟨?_, ?_, ?_⟩
  · rw [l11, l3]
    intro p hp
    exact List.all_eq_true.1 (List.all_takeWhile (l := x.live)) p hp
  · rw [l11]; exact l15
  · rw [l11]; exact l8

theorem detected_of (en : Env σ) {t s' : State σ} (hi : Inv t) (e : Epoch) (now : Nat)
    (hg : s'.get e = (t.detectLost en e now).2.get e) (ht : s'.thresh = t.thresh) (hr : s'.rtt = t.rtt) :
    Detected (s'.lossDelay en) s'.thresh.pkt now (s'.get e) (t.detectLost en e now).1.lost := by
  obtain ⟨d1, d2, -⟩ := detectLost_spec en t e now
  rw [hg, d2, if_pos rfl, d1, show s'.lossDelay en = t.lossDelay en by unfold State.lossDelay; rw [ht, hr], ht]
  exact lose_detected _ _ _ (hi e)

/-- Calls that look for lost packets. -/
def Detects (s s' : State σ) (out : Out) : Op → Prop
  | .ack _ _ _ _ _ _ => out.acked ≠ [] ∧ s'.failed = false
  | .timeout _ _ => s.lossTimeAndSpace.1.isSome = true
  | .pathChange _ _ => True
  | _ => False

/-- The time of a call. -/
def nowOf : Op → Nat
  | .ack _ _ _ _ now _ => now
  | .timeout _ now => now
  | .pathChange _ now => now
  | _ => 0

theorem step_detected (en : Env σ) {s : State σ} (o : Op) (hi : Inv s)
    (hd : Detects s (step en s o).1 (step en s o).2 o ∨ (step en s o).2.lost ≠ []) :
    Detected ((step en s o).1.lossDelay en) (step en s o).1.thresh.pkt (nowOf o) ((step en s o).1.get (step en s o).2.epoch) (step en s o).2.lost := by
  cases o with
  | ack e rs delay st now skip =>
    have hd' : ((s.onAck en e rs delay st now skip).2.acked ≠ [] ∧ (s.onAck en e rs delay st now skip).1.failed = false) ∨
      (s.onAck en e rs delay st now skip).2.lost ≠ [] := hd
    show Detected ((s.onAck en e rs delay st now skip).1.lossDelay en) (s.onAck en e rs delay st now skip).1.thresh.pkt now
      ((s.onAck en e rs delay st now skip).1.get (s.onAck en e rs delay st now skip).2.epoch) (s.onAck en e rs delay st now skip).2.lost
    rcases onAck_cases en s e rs delay st now skip with ⟨_, he⟩ | ⟨hnf, hn, he⟩ | ⟨hnf, last, hl, he⟩
    · rw [he] at hd'
      rcases hd' with h | h
      · exact nomatch h.2
      · exact absurd rfl h
    · rw [he] at hd'
      rcases hd' with h | h
      · exact absurd rfl h.1
      · exact absurd rfl h
    · obtain ⟨t, ht⟩ : ∃ t, t = ackState en s e rs delay st now skip last := ⟨_, rfl⟩
      obtain ⟨g1, g2, g3, g4, g5, g6, g7, g8, g9, g10, g11, g12, g13, g14, g15, -⟩ := ackTail_spec en s e rs delay st now skip last ht he
      have hti : Inv t := by rw [ht]; exact ackState_inv en hi e rs delay st now skip last
      rw [g4, g7]
      exact detected_of en hti e now (g1 e) g14 g15
  | timeout st now =>
    by_cases hl : s.lossTimeAndSpace.1.isSome = true
    · have he : s.onTimeout en st now = ((State.setTimer { (s.detectLost en s.lossTimeAndSpace.2 now).2.tell en (.event false s.flight.bytes
          (s.detectLost en s.lossTimeAndSpace.2 now).2.flight.bytes now [] (s.detectLost en s.lossTimeAndSpace.2 now).1.newly
          ((s.detectLost en s.lossTimeAndSpace.2 now).2.get s.lossTimeAndSpace.2).leastUnacked) with
          lostCount := ((s.detectLost en s.lossTimeAndSpace.2 now).2.tell en (.event false s.flight.bytes
          (s.detectLost en s.lossTimeAndSpace.2 now).2.flight.bytes now [] (s.detectLost en s.lossTimeAndSpace.2 now).1.newly
          ((s.detectLost en s.lossTimeAndSpace.2 now).2.get s.lossTimeAndSpace.2).leastUnacked)).lostCount +
            (s.detectLost en s.lossTimeAndSpace.2 now).1.newly.length } st now,
          ⟨s.lossTimeAndSpace.2, [], [], (s.detectLost en s.lossTimeAndSpace.2 now).1.lost, [], [], none,
            (s.detectLost en s.lossTimeAndSpace.2 now).1.newly.length, (s.detectLost en s.lossTimeAndSpace.2 now).1.bytes, 0, 0⟩)) := by
        unfold State.onTimeout; rw [if_pos hl]
      show Detected ((s.onTimeout en st now).1.lossDelay en) (s.onTimeout en st now).1.thresh.pkt now
        ((s.onTimeout en st now).1.get (s.onTimeout en st now).2.epoch) (s.onTimeout en st now).2.lost
      rw [he]
      obtain ⟨d1, d2, d3, d4, d5, d6, d7, d8, d9⟩ := detectLost_spec en s s.lossTimeAndSpace.2 now
      exact detected_of en hi s.lossTimeAndSpace.2 now (by dsimp only; rw [setTimer_get]; exact get_congr rfl rfl rfl _) d7 d6
    · rcases hd with h | h
      · exact absurd h hl
      · have : (s.onTimeout en st now).2.lost ≠ [] := h
        unfold State.onTimeout at this
        rw [if_neg hl] at this
        exact absurd rfl this
  | pathChange e now =>
    obtain ⟨d1, d2, d3, d4, d5, d6, d7, d8, d9⟩ := detectLost_spec en s e now
    exact detected_of en hi e now rfl d7 d6
  | send e p st now => exact hd.elim (fun h => h.elim) (fun h => absurd rfl h)
  | discard e st now => exact hd.elim (fun h => h.elim) (fun h => absurd rfl h)
  | pingSent e => exact hd.elim (fun h => h.elim) (fun h => absurd rfl h)
  | nextAcked e => exact hd.elim (fun h => h.elim) (fun h => absurd rfl h)
  | nextLost e => exact hd.elim (fun h => h.elim) (fun h => absurd rfl h)
  | ackDelay e => exact hd.elim (fun h => h.elim) (fun h => absurd rfl h)

/-! ### The largest acknowledged packet -/

theorem step_largest (en : Env σ) {s : State σ} (o : Op) (hi : Inv s) (e : Epoch) (g : Nat) (hg : ((step en s o).1.get e).largestAcked = some g) :
    (s.get e).largestAcked = some g ∨ g ∈ ((step en s o).2.at e (step en s o).2.acked).map Prod.fst := by
  by_cases hq : o.quiet = true
  · left; rw [← hg, ((quiet_spec en s o hq).1 e).2.2.2]
  · cases o with
    | send e' p st now =>
      left
      have : ((s.onSent en e' p st now).get e).largestAcked = some g := hg
      rw [onSent_get] at this
      split at this
      · next h => subst h; exact this
      · exact this
    | ack e' rs delay st now skip =>
      have hg' : ((s.onAck en e' rs delay st now skip).1.get e).largestAcked = some g := hg
      show _ ∨ g ∈ ((s.onAck en e' rs delay st now skip).2.at e (s.onAck en e' rs delay st now skip).2.acked).map Prod.fst
      obtain ⟨a1, a2, a3, a4, a5, a6, a7, a8, a9, a10, a11, a12, a13, a14⟩ := acked_spec skip rs (hi e')
      rcases onAck_cases en s e' rs delay st now skip with ⟨_, he⟩ | ⟨hnf, hn, he⟩ | ⟨hnf, last, hl, he⟩
      · left
        rw [he] at hg'
        have hg2 : ((s.set e' ((s.get e').acked skip rs).2.2).get e).largestAcked = some g := by
          rw [← hg']; exact congrArg Space.largestAcked (get_congr rfl rfl rfl e)
        by_cases h : e = e'
        · subst h; rw [get_set_same, a12] at hg2; exact hg2
        · rw [get_set_other _ _ h] at hg2; exact hg2
      · left
        rw [he] at hg'
        dsimp only at hg'
        rw [spurious_get] at hg'
        by_cases h : e = e'
        · subst h; rw [get_set_same, a12] at hg'; exact hg'
        · rw [get_set_other _ _ h] at hg'; exact hg'
      · obtain ⟨t, ht⟩ : ∃ t, t = ackState en s e' rs delay st now skip last := ⟨_, rfl⟩
        obtain ⟨g1, g2, g3, g4, g5, g6, g7, g8, g9, -⟩ := ackTail_spec en s e' rs delay st now skip last ht he
        have hti : Inv t := by rw [ht]; exact ackState_inv en hi e' rs delay st now skip last
        rw [g1, (detectLost_spec en t e' now).2.1] at hg'
        by_cases h : e = e'
        · subst h
          rw [if_pos rfl] at hg'
          obtain ⟨-, -, -, -, -, -, -, -, -, -, l11, -⟩ := lose_spec (t.lossDelay en) t.thresh.pkt now (hti e)
          rw [l11, ht, ackState_get, if_pos rfl, a12] at hg'
          dsimp only at hg'
          have hlast : last.1 ∈ ((s.onAck en e rs delay st now skip).2.at e (s.onAck en e rs delay st now skip).2.acked).map Prod.fst := by
            rw [Out.at, if_pos g4, g6]
            exact List.mem_map_of_mem (List.mem_of_getLast? hl)
          have hgm : Nat.max ((s.get e).largestAcked.getD 0) last.1 = g := by simpa using hg'
          cases hla : (s.get e).largestAcked with
          | none =>
            right
            rw [hla] at hgm
            have : g = last.1 := by rw [← hgm]; exact Nat.zero_max _
            rw [this]; exact hlast
          | some v =>
            rw [hla] at hgm
            by_cases hv : v ≤ last.1
            · right
              have : g = last.1 := by rw [← hgm]; exact Nat.max_eq_right hv
              rw [this]; exact hlast
            · left
              have : g = v := by rw [← hgm]; exact Nat.max_eq_left (by show last.1 ≤ v; omega)
              rw [this]
        · rw [if_neg h, ht, ackState_get, if_neg h] at hg'
          exact Or.inl hg'
    | timeout st now =>
      left
      have hg' : ((s.onTimeout en st now).1.get e).largestAcked = some g := hg
      unfold State.onTimeout at hg'
      split at hg'
      · dsimp only at hg'
        rw [setTimer_get] at hg'
        have hg2 : ((s.detectLost en s.lossTimeAndSpace.2 now).2.get e).largestAcked = some g := by
          rw [← hg']; exact congrArg Space.largestAcked (get_congr rfl rfl rfl e)
        rw [(detectLost_spec en s s.lossTimeAndSpace.2 now).2.1] at hg2
        split at hg2
        · next h =>
          subst h
          obtain ⟨-, -, -, -, -, -, -, -, -, -, l11, -⟩ := lose_spec (s.lossDelay en) s.thresh.pkt now (hi s.lossTimeAndSpace.2)
          rw [l11] at hg2; exact hg2
        · exact hg2
      · dsimp only at hg'
        rw [(onPto_spec en s st now).1] at hg'
        split at hg' <;> exact hg'
    | discard e' st now =>
      left
      have hg' : ((s.onDiscard en e' st now).1.get e).largestAcked = some g := hg
      rw [(onDiscard_spec en s e' st now).1] at hg'
      split at hg'
      · next h => subst h; exact hg'
      · exact hg'
    | pathChange e' now =>
      left
      have hg' : ((s.detectLost en e' now).2.get e).largestAcked = some g := hg
      rw [(detectLost_spec en s e' now).2.1] at hg'
      split at hg'
      · next h =>
        subst h
        obtain ⟨-, -, -, -, -, -, -, -, -, -, l11, -⟩ := lose_spec (s.lossDelay en) s.thresh.pkt now (hi e)
        rw [l11] at hg'; exact hg'
      · exact hg'
    | _ => exact absurd rfl hq

theorem run_largest (en : Env σ) (e : Epoch) : ∀ (os : List Op) (s : State σ) (A : List Nat), Inv s → Ascending os → Below s os →
    (∀ g, (s.get e).largestAcked = some g → g ∈ A) →
    ∀ g, ((run en s os).1.get e).largestAcked = some g → g ∈ A ++ (ackedIn e (run en s os).2).map Prod.fst
  | [], _, _, _, _, _, h => fun g hg => List.mem_append_left _ (h g hg)
  | o :: os, s, A, hi, ha, hb, h => by
    intro g hg
    have hf := step_facts en hi o hb.fresh
    have := run_largest en e os (step en s o).1 (A ++ ((step en s o).2.at e (step en s o).2.acked).map Prod.fst) hf.inv ha.tail
      (hb.step en ha hf) (by
        intro g hg
        rcases step_largest en o hi e g hg with h' | h'
        · exact List.mem_append_left _ (h g h')
        · exact List.mem_append_right _ h') g hg
    show g ∈ A ++ ((step en s o).2.at e (step en s o).2.acked ++ ackedIn e (run en (step en s o).1 os).2).map Prod.fst
    rw [List.map_append, ← List.append_assoc]
    exact this

section
variable (en : Env σ) (t0 r d : Nat) (relaxed : Bool) (c : σ)

theorem pkt_ge (os : List Op) (p : Nat) (hp : (run en (State.new t0 r d relaxed c) os).1.thresh.pkt = some p) : 3 ≤ p := by
  cases relaxed with
  | false =>
    obtain ⟨-, -, q, hq, h3, -⟩ := strict_bounds en t0 r d c os
    rw [hq] at hp; cases hp; exact h3
  | true =>
    obtain ⟨⟨o, -, -, -, -, h⟩, -⟩ := relaxed_bounds en t0 r d c os
    rcases h with ⟨h, -⟩ | h
    · rw [h] at hp; cases hp; exact Nat.le_refl _
    · rw [h] at hp; cases hp

/-- **C133.** A packet is declared lost only if a packet that is not older was acknowledged
or it has number 0; and it is overdue, or at least three packets older than an acknowledged
one. -/
theorem lost_only_partial (os : List Op) (o : Op) (ha : Ascending (os ++ [o])) (e : Epoch) {s s' : State σ} {out : Out}
    (hs : s = (run en (State.new t0 r d relaxed c) os).1) (hstep : (s', out) = step en s o) (he : out.epoch = e)
    (x : Nat × Info) (hx : x ∈ out.lost) :
    ((∃ g ∈ (ackedIn e (run en (State.new t0 r d relaxed c) (os ++ [o])).2).map Prod.fst, x.1 ≤ g) ∨ x.1 = 0) ∧
    (x.2.timeSent ≤ nowOf o - s'.lossDelay en ∨
      ∃ g ∈ (ackedIn e (run en (State.new t0 r d relaxed c) (os ++ [o])).2).map Prod.fst, ∃ p, s'.thresh.pkt = some p ∧ 3 ≤ p ∧ x.1 + p ≤ g) := by
  have happ := run_append en os [o] (State.new t0 r d relaxed c)
  have h1 : s' = (step en s o).1 := congrArg Prod.fst hstep
  have h2 : out = (step en s o).2 := congrArg Prod.snd hstep
  have hs' : (run en (State.new t0 r d relaxed c) (os ++ [o])).1 = s' := by rw [happ.1, ← hs, h1]; rfl
  have hi : Inv s := by
    rw [hs]; exact (run_facts en os _ (new_inv t0 r d relaxed c) (ascending_append ha) (new_below t0 r d relaxed c os)).1
  have hlg : ∀ g, (s'.get e).largestAcked = some g → g ∈ (ackedIn e (run en (State.new t0 r d relaxed c) (os ++ [o])).2).map Prod.fst := by
    intro g hg
    rw [← hs'] at hg
    have := run_largest en e (os ++ [o]) (State.new t0 r d relaxed c) [] (new_inv t0 r d relaxed c) ha (new_below t0 r d relaxed c _)
      (by intro g hg; cases e <;> exact nomatch hg) g hg
    exact this
  have hD := step_detected en o hi (Or.inr (by rw [← h2]; intro h; rw [h] at hx; exact nomatch hx))
  rw [← h1, ← h2, he] at hD
  have ht := hD.only x hx
  unfold lostTest isLost at ht
  simp only [Bool.and_eq_true, decide_eq_true_eq, Bool.or_eq_true] at ht
  refine ⟨?_, ?_⟩
  · cases hl : (s'.get e).largestAcked with
    | none => right; rw [hl] at ht; have := ht.1; exact Nat.le_zero.1 this
    | some g => left; rw [hl] at ht; exact ⟨g, hlg g hl, ht.1⟩
  · rcases ht.2 with h | h
    · exact Or.inl h
    · right
      cases hp : s'.thresh.pkt with
      | none => rw [hp] at h; exact nomatch h
      | some p =>
        rw [hp] at h
        have h3 := pkt_ge en t0 r d relaxed c (os ++ [o]) p (by rw [hs']; exact hp)
        simp only [decide_eq_true_eq] at h
        cases hl : (s'.get e).largestAcked with
        | none => rw [hl] at h; simp only [Option.getD_none] at h; omega
        | some g => rw [hl] at h; exact ⟨g, hlg g hl, p, rfl, h3, h⟩

/-- **C133.** After loss detection the oldest open packet is not overdue, and a loss time is
pending for it if it is not above the largest acknowledged packet. -/
theorem oldest (os : List Op) (o : Op) (ha : Ascending os) {s s' : State σ} {out : Out}
    (hs : s = (run en (State.new t0 r d relaxed c) os).1) (hstep : (s', out) = step en s o) (hd : Detects s s' out o)
    (x : Nat × Info) (hx : (s'.get out.epoch).live.head? = some x) (hle : x.1 ≤ (s'.get out.epoch).largestAcked.getD 0) :
    nowOf o - s'.lossDelay en < x.2.timeSent ∧ (∀ p, s'.thresh.pkt = some p → (s'.get out.epoch).largestAcked.getD 0 < x.1 + p) ∧
    (s'.get out.epoch).lossTime = some (x.2.timeSent + s'.lossDelay en) := by
  have h1 : s' = (step en s o).1 := congrArg Prod.fst hstep
  have h2 : out = (step en s o).2 := congrArg Prod.snd hstep
  have hi : Inv s := by rw [hs]; exact (run_facts en os _ (new_inv t0 r d relaxed c) ha (new_below t0 r d relaxed c os)).1
  have hD := step_detected en o hi (Or.inl (by rw [← h1, ← h2]; exact hd))
  rw [← h1, ← h2] at hD
  have hl := hD.left x hx
  have hp := hD.pending
  unfold lostTest isLost at hl
  simp only [hle, decide_true, Bool.true_and, Bool.or_eq_false_iff, decide_eq_false_iff_not] at hl
  refine ⟨by omega, ?_, ?_⟩
  · intro p hp'
    rw [hp'] at hl
    have := hl.2
    simp only [decide_eq_false_iff_not] at this
    omega
  · rw [hp]
    cases hlv : (s'.get out.epoch).live with
    | nil => rw [hlv] at hx; exact nomatch hx
    | cons y l =>
      rw [hlv] at hx
      have : y = x := by simpa using hx
      subst this
      show (if y.1 ≤ _ then some _ else none) = _
      rw [if_pos hle]

/-- Packets are recorded in the order of their times. -/
def InOrder (e : Epoch) (tr : List (Op × Out)) : Prop := (sentIn e tr).Pairwise fun a b => a.2.timeSent ≤ b.2.timeSent

/-- No overtaken packet of the space is overdue, and the loss time is that of the earliest. -/
def Complete (en : Env σ) (s : State σ) (e : Epoch) (now : Nat) : Prop :=
  ∀ x ∈ (s.get e).live, x.1 ≤ (s.get e).largestAcked.getD 0 →
    now - s.lossDelay en < x.2.timeSent ∧ (∀ p, s.thresh.pkt = some p → (s.get e).largestAcked.getD 0 < x.1 + p) ∧
    ∃ t, (s.get e).lossTime = some t ∧ t ≤ x.2.timeSent + s.lossDelay en

theorem order_of_sent {l : List (Nat × Info)} (h1 : l.Pairwise fun a b => a.1 < b.1) (h2 : l.Pairwise fun a b => a.2.timeSent ≤ b.2.timeSent) :
    ∀ x ∈ l, ∀ y ∈ l, x.1 < y.1 → x.2.timeSent ≤ y.2.timeSent := by
  induction l with
  | nil => intro x hx; exact nomatch hx
  | cons a l ih =>
    have a1 := List.pairwise_cons.1 h1
    have a2 := List.pairwise_cons.1 h2
    intro x hx y hy hlt
    rcases List.mem_cons.1 hx with hxa | hxl
    · rcases List.mem_cons.1 hy with hya | hyl
      · rw [hxa, hya]; exact Nat.le_refl _
      · rw [hxa]; exact a2.1 y hyl
    · rcases List.mem_cons.1 hy with hya | hyl
      · have := a1.1 x hxl; rw [hya] at hlt; omega
      · exact ih a1.2 a2.2 x hxl y hyl hlt

/-- **C133.** All overdue packets are declared lost, when packets are recorded in the order
of their times. -/
theorem complete_partial (os : List Op) (o : Op) (ha : Ascending (os ++ [o])) {s s' : State σ} {out : Out}
    (hs : s = (run en (State.new t0 r d relaxed c) os).1) (hstep : (s', out) = step en s o) (hd : Detects s s' out o)
    (hord : InOrder out.epoch (run en (State.new t0 r d relaxed c) (os ++ [o])).2) : Complete en s' out.epoch (nowOf o) := by
  have happ := run_append en os [o] (State.new t0 r d relaxed c)
  have h1 : s' = (step en s o).1 := congrArg Prod.fst hstep
  have hs' : (run en (State.new t0 r d relaxed c) (os ++ [o])).1 = s' := by rw [happ.1, ← hs, h1]; rfl
  have hinv := (run_facts en (os ++ [o]) _ (new_inv t0 r d relaxed c) ha (new_below t0 r d relaxed c _)).1
  rw [hs'] at hinv
  have hsorted := live_sorted (hinv out.epoch)
  have hmem : ∀ x ∈ (s'.get out.epoch).live, x ∈ sentIn out.epoch (run en (State.new t0 r d relaxed c) (os ++ [o])).2 := by
    intro x hx
    exact ((open_iff en t0 r d relaxed c (os ++ [o]) ha out.epoch x).1 (by rw [hs']; exact hx)).1
  have hnum : (sentIn out.epoch (run en (State.new t0 r d relaxed c) (os ++ [o])).2).Pairwise fun a b => a.1 < b.1 :=
    List.pairwise_map.1 (List.Pairwise.sublist (sent_numbers en out.epoch (os ++ [o]) _) ha)
  have hot := order_of_sent hnum hord
  intro x hx hle
  have hold := oldest en t0 r d relaxed c os o (ascending_append ha) hs hstep hd
  cases hlv : (s'.get out.epoch).live with
  | nil => rw [hlv] at hx; exact nomatch hx
  | cons y l =>
    rw [hlv] at hsorted
    have hy : y ∈ (s'.get out.epoch).live := by rw [hlv]; exact List.mem_cons_self ..
    have hxy : y.1 ≤ x.1 ∧ y.2.timeSent ≤ x.2.timeSent := by
      have hx' := hx
      rw [hlv] at hx'
      rcases List.mem_cons.1 hx' with rfl | hx'
      · exact ⟨Nat.le_refl _, Nat.le_refl _⟩
      · have := (List.pairwise_cons.1 hsorted).1 x hx'
        exact ⟨Nat.le_of_lt this, hot y (hmem y hy) x (hmem x hx) this⟩
    obtain ⟨b1, b2, b3⟩ := hold y (by rw [hlv]; rfl) (by omega)
    refine ⟨by omega, ?_, _, b3, by omega⟩
    intro p hp
    have := b2 p hp
    omega

end

/-! ### Witnesses -/

/-- Two packets are overtaken; the first is late by distance, the other waits for its time. -/
example :
    let os : List Op := [.send .application (data 0 1000) done 5, .send .application (data 1 1000) done 6,
      .send .application (data 2 1000) done 7, .send .application (data 3 1000) done 8, .ack .application [(3, 4)] 0 done 50000000 none]
    (run quietEnv s0 os).1.application.live.map Prod.fst = [1, 2] ∧
    (run quietEnv s0 os).1.application.lossTime = some (6 + (run quietEnv s0 os).1.lossDelay quietEnv) := by
  refine ⟨?_, ?_⟩ <;> decide +kernel

/-- A spurious loss by a distance of four packets raises the threshold to five. -/
example :
    let os : List Op := [.send .application (data 0 1000) done 5, .send .application (data 1 1000) done 6,
      .send .application (data 2 1000) done 7, .send .application (data 3 1000) done 8, .send .application (data 4 1000) done 8,
      .ack .application [(4, 5)] 0 done 100 none, .ack .application [(0, 1)] 0 done 200 none]
    (run quietEnv s0 os).1.thresh = ⟨some 5, 10, none⟩ ∧ (run quietEnv s0 os).1.spuriousCount = 1 ∧
    (run quietEnv (State.new 0 100000000 25000000 true ()) os).1.thresh = ⟨none, 9, some 1⟩ := by
  refine ⟨?_, ?_, ?_⟩ <;> decide +kernel

/-- No ACK is received. -/
def noAck (os : List Op) : Bool := os.all fun o => match o with | .ack _ _ _ _ _ _ => false | _ => true

/-- Packet number 0 is declared lost although nothing was acknowledged. -/
theorem lost_unacked_false : ∃ os : List Op, Ascending os ∧ noAck os = true ∧
    (lostIn .application (run quietEnv s0 os).2).map Prod.fst = [0] :=
  ⟨[.send .application (data 0 1000) done 5, .pathChange .application 1000000000], by unfold Ascending; decide +kernel, by decide +kernel, by decide +kernel⟩

/-- A controller whose first packet is released late. -/
def lateEnv : Env Nat := ⟨⟨fun k now => if k = 0 then now + 1000000000 else now, fun k _ _ => k + 1⟩, fun k d => d * k / 8, fun x => x / 4, fun x => x / 2⟩

/-- When the recorded times go back, an overdue packet is left open behind one that is not. -/
theorem complete_false : ∃ os : List Op, Ascending os ∧ (run lateEnv (State.new 0 100000000 25000000 false 0) os).1.failed = false ∧
    ¬ Complete lateEnv (run lateEnv (State.new 0 100000000 25000000 false 0) os).1 .application 900000000 := by
  refine ⟨[.send .application (data 0 1000) done 5, .send .application (data 1 1000) done 6,
    .send .application (data 2 1000) done 899999999, .ack .application [(2, 3)] 0 done 900000000 none], ?_, ?_, ?_⟩
  · unfold Ascending; decide +kernel
  · decide +kernel
  · intro h
    have := (h (1, ⟨6, true, true, true, false, 1000, [.other 1]⟩) (by decide +kernel) (by decide +kernel)).1
    revert this
    decide +kernel

/-- The loss delay is the largest of a millisecond and the time threshold times the latest
and the smoothed round-trip time. -/
theorem delay_exact (en : Env σ) (s : State σ) (hm : ∀ a b, a ≤ b → en.scale s.thresh.time a ≤ en.scale s.thresh.time b) :
    (∀ d ∈ [1000000, en.scale s.thresh.time s.rtt.latest, en.scale s.thresh.time s.rtt.smoothed], d ≤ s.lossDelay en)
    ∧ s.lossDelay en ∈ [1000000, en.scale s.thresh.time s.rtt.latest, en.scale s.thresh.time s.rtt.smoothed] := by
  have hg : (Verif.Rec.granularity : Nat) = 1000000 := rfl
  unfold State.lossDelay
  rw [hg]
  have hor : Nat.max s.rtt.latest s.rtt.smoothed = s.rtt.latest ∧ s.rtt.smoothed ≤ s.rtt.latest
      ∨ Nat.max s.rtt.latest s.rtt.smoothed = s.rtt.smoothed ∧ s.rtt.latest ≤ s.rtt.smoothed := by
    rcases Nat.le_total s.rtt.smoothed s.rtt.latest with h | h
    · exact Or.inl ⟨Nat.max_eq_left h, h⟩
    · exact Or.inr ⟨Nat.max_eq_right h, h⟩
  rcases hor with ⟨h, hle⟩ | ⟨h, hle⟩
  all_goals
    rw [h]
    have := hm _ _ hle
    refine ⟨?_, ?_⟩
    · intro d hd
      simp only [List.mem_cons, List.not_mem_nil, or_false] at hd
      rcases hd with hd | hd | hd <;> rw [hd]
      · exact Nat.le_max_right _ _
      · exact Nat.le_trans (by omega) (Nat.le_max_left _ _)
      · exact Nat.le_trans (by omega) (Nat.le_max_left _ _)
    · rcases Nat.le_total (en.scale s.thresh.time s.rtt.latest) 1000000 with h1 | h1 <;>
        rcases Nat.le_total (en.scale s.thresh.time s.rtt.smoothed) 1000000 with h2 | h2 <;>
        simp [Nat.max_def, h1, h2] <;> omega

end Verif.Props.C133
