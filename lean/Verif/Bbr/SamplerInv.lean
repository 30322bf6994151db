import Verif.Bbr.MapLemmas

/-!
What always holds in the bandwidth sampler, and that it never panics.
-/

namespace Verif.Bbr

/-! ### The tracker of ack aggregation -/

/-- A stored height: not from a later round, and put back at round 0. -/
def StoredOk (r : Nat) (x : FSample Extra) : Prop := x.time ≤ r ∧ x.value.round = 0

/-- The filter of heights in round `r`. -/
def FilterOk (r : Nat) (f : Filter Extra) : Prop :=
  ∀ e, f.est = some e → StoredOk r e.1 ∧ StoredOk r e.2.1 ∧ StoredOk r e.2.2

/-- The tracker in round `r`. -/
structure TInv (r : Nat) (t : Tracker) : Prop where
  ok : t.bad = false
  factor : 1 ≤ t.factor
  filter : FilterOk r t.filter

theorem FilterOk.mono {r r' : Nat} {f : Filter Extra} (h : FilterOk r f) (hr : r ≤ r') : FilterOk r' f := by
  intro e he
  obtain ⟨⟨a, a'⟩, ⟨b, b'⟩, ⟨c, c'⟩⟩ := h e he
  exact ⟨⟨by omega, a'⟩, ⟨by omega, b'⟩, ⟨by omega, c'⟩⟩

theorem TInv.mono {r r' : Nat} {t : Tracker} (h : TInv r t) (hr : r ≤ r') : TInv r' t := ⟨h.ok, h.factor, h.filter.mono hr⟩

theorem place_ok {P : FSample Extra → Prop} (gt : Extra → Extra → Bool) (e : FSample Extra × FSample Extra × FSample Extra) (v : FSample Extra)
    (h0 : P e.1) (h1 : P e.2.1) (h2 : P e.2.2) (hv : P v) : P (place gt e v).1 ∧ P (place gt e v).2.1 ∧ P (place gt e v).2.2 := by
  unfold place
  split
  · exact ⟨h0, hv, hv⟩
  · split
    · exact ⟨h0, h1, hv⟩
    · exact ⟨h0, h1, h2⟩

theorem expire_ok {P : FSample Extra → Prop} (win : Nat) (e : FSample Extra × FSample Extra × FSample Extra) (v : FSample Extra)
    (h0 : P e.1) (h1 : P e.2.1) (h2 : P e.2.2) (hv : P v) : P (expire win e v).1 ∧ P (expire win e v).2.1 ∧ P (expire win e v).2.2 := by
  unfold expire
  split
  · unfold promote
    split
    · exact ⟨h2, hv, hv⟩
    · exact ⟨h1, h2, hv⟩
  · split
    · exact ⟨h0, hv, hv⟩
    · split
      · exact ⟨h0, h1, hv⟩
      · exact ⟨h0, h1, h2⟩

theorem update_ok {r : Nat} {f : Filter Extra} (h : FilterOk r f) (v : FSample Extra) (hv : v.value.round = 0) (ht : v.time = r) :
    ∃ f', f.update Extra.gt v = some f' ∧ FilterOk r f' ∧ f'.win = f.win := by
  have hvo : StoredOk r v := ⟨by omega, hv⟩
  have hres : FilterOk r (f.reset v) := by
    intro e he
    simp only [Filter.reset, Option.some.injEq] at he
    rw [← he]
    exact ⟨hvo, hvo, hvo⟩
  unfold Filter.update
  cases he : f.est with
  | none => exact ⟨_, rfl, hres, rfl⟩
  | some e =>
    obtain ⟨h0, h1, h2⟩ := h e he
    dsimp only
    by_cases hg : Extra.gt v.value e.1.value = true
    · rw [if_pos hg]; exact ⟨_, rfl, hres, rfl⟩
    · rw [if_neg hg, if_pos (by unfold Before; have := h0.1; have := h1.1; have := h2.1; simp only [decide_eq_true_eq]; omega)]
      split
      · exact ⟨_, rfl, hres, rfl⟩
      · refine ⟨_, rfl, ?_, rfl⟩
        intro e' he'
        simp only [Option.some.injEq] at he'
        rw [← he']
        obtain ⟨p0, p1, p2⟩ := place_ok (P := StoredOk r) Extra.gt e v h0 h1 h2 hvo
        exact expire_ok (P := StoredOk r) f.win _ v p0 p1 p2 hvo

theorem feed_inv {r : Nat} {t : Tracker} (h : TInv r t) (x : Extra) (hx : x.round = 0) : TInv r (t.feed x r) := by
  obtain ⟨f, h1, h2, -⟩ := update_ok h.filter ⟨x, r⟩ hx rfl
  unfold Tracker.feed
  rw [h1]
  exact ⟨h.ok, h.factor, h2⟩

theorem again_inv {t : Tracker} (h : TInv 0 t) (bw : Nat) (x : Extra) (hx : x.round = 0) : TInv 0 (t.again bw x) := by
  unfold Tracker.again
  split
  · rw [hx]
    exact feed_inv h _ rfl
  · exact h

theorem renew_inv {r : Nat} {t : Tracker} (h : TInv r t) (bw : Nat) : TInv r (t.renew bw) := by
  have hz : Extra.zero.round = 0 := rfl
  have hb : (t.filter.best.getD .zero).round = 0 ∧ (t.filter.second.getD .zero).round = 0 ∧ (t.filter.third.getD .zero).round = 0 := by
    unfold Filter.best Filter.second Filter.third
    cases he : t.filter.est with
    | none => exact ⟨hz, hz, hz⟩
    | some e =>
      obtain ⟨a, b, c⟩ := h.filter e he
      exact ⟨a.2, b.2, c.2⟩
  have h0 : TInv 0 { t with filter := t.filter.clear } := ⟨h.ok, h.factor, by intro e he; cases he⟩
  unfold Tracker.renew
  exact (again_inv (again_inv (again_inv h0 bw _ hb.1) bw _ hb.2.1) bw _ hb.2.2).mono (Nat.zero_le _)

theorem start_inv {r : Nat} {t : Tracker} (h : TInv r t) (a b c : Nat) : TInv r (t.start a b c) := ⟨h.ok, h.factor, h.filter⟩

theorem tracker_inv {r : Nat} {t : Tracker} (h : TInv r t) (bw : Nat) (newMax : Bool) (lastSent lastAcked now bytes : Nat) :
    TInv r (t.update bw newMax r lastSent lastAcked now bytes).2 := by
  unfold Tracker.update
  dsimp only
  have hr : TInv r (if newMax = true then t.renew bw else t) := by
    split
    · exact renew_inv h bw
    · exact h
  generalize (if newMax = true then t.renew bw else t) = u at hr
  split
  · split
    · exact start_inv hr _ _ _
    · unfold Tracker.within
      dsimp only
      split
      · exact start_inv hr _ _ _
      · next hf =>
        apply feed_inv
        · refine ⟨?_, hr.factor, hr.filter⟩
          dsimp only
          rw [hr.ok]
          have h1 := hr.factor
          generalize bytesPer bw _ = x at *
          have : x ≤ u.factor * x := Nat.le_mul_of_pos_left x h1
          simp only [Bool.false_or, decide_eq_false_iff_not]
          omega
        · rfl
  · exact start_inv hr _ _ _

/-! ### The sampler -/

/-- A packet sent: its counters are those of an earlier time. -/
structure EntryOk (acked sent : Nat) (e : Entry) : Prop where
  acked : e.state.acked ≤ acked
  base : e.sentAtLastAcked ≤ e.state.sent
  sent : e.state.sent ≤ sent
  valid : e.state.valid = true

/-- The sampler before packet `n`, in round `r`. -/
structure SInv (n r : Nat) (s : Sampler) : Prop where
  sorted : s.map.Sorted
  below : ∀ p ∈ s.map, p.1 < n
  ent : ∀ q ∈ s.map.live, EntryOk s.acked s.sent q.2
  base : s.sentAtLastAcked ≤ s.sent
  p0 : ∀ p, s.point0 = some p → p.acked ≤ s.acked
  p1 : ∀ p, s.point1 = some p → p.acked ≤ s.acked
  cs : ∀ c ∈ s.cands, c.acked ≤ s.acked
  has : s.avoid = true → 0 < s.acked → s.point1.isSome = true
  before : s.ackedBefore ≤ s.acked
  tr : TInv r s.tracker
  ok : s.bad = false

theorem SInv.good {n r : Nat} {s : Sampler} (h : SInv n r s) : s.failed = false := by
  unfold Sampler.failed
  rw [h.ok, h.tr.ok]
  rfl

theorem SInv.mono {n r n' r' : Nat} {s : Sampler} (h : SInv n r s) (hn : n ≤ n') (hr : r ≤ r') : SInv n' r' s :=
  { h with below := fun p hp => Nat.lt_of_lt_of_le (h.below p hp) hn, tr := h.tr.mono hr }

theorem new_inv (win : Nat) (avoid fix : Bool) (now : Nat) : SInv 0 0 (Sampler.new win avoid fix now) := by
  refine { sorted := List.Pairwise.nil, below := (by intro p hp; cases hp), ent := (by intro q hq; cases hq), base := Nat.le_refl _,
           p0 := (by intro p hp; cases hp), p1 := (by intro p hp; cases hp), cs := (by intro c hc; cases hc),
           has := (by intro _ h; exact absurd h (by simp [Sampler.new])), before := Nat.le_refl _,
           tr := ⟨rfl, ?_, by intro e he; cases he⟩, ok := rfl }
  show 1 ≤ (if avoid = true then 2 else 1)
  split <;> omega

/-- Removing packets. -/
theorem shrink_inv {n r : Nat} {s : Sampler} (h : SInv n r s) (m : PMap) (hk : (m.map Prod.fst).Sublist (s.map.map Prod.fst))
    (hl : ∀ q ∈ m.live, q ∈ s.map.live) : SInv n r { s with map := m } :=
  { h with sorted := Sorted.sub h.sorted hk, below := keys_lt hk h.below, ent := fun q hq => h.ent q (hl q hq) }

theorem take_sub {s : Sampler} (hs : s.map.Sorted) (pn : Nat) :
    (((s.map.take pn).2).map Prod.fst).Sublist (s.map.map Prod.fst) ∧ ∀ q ∈ (s.map.take pn).2.live, q ∈ s.map.live := by
  obtain ⟨-, h2, h3⟩ := take_spec pn s.map hs
  refine ⟨h3, ?_⟩
  intro q hq
  rw [h2] at hq
  exact (List.mem_filter.1 hq).1

theorem point_inv {n r : Nat} {s : Sampler} (h : SInv n r s) (now : Nat) : SInv n r (s.point now) := by
  unfold Sampler.point
  refine { h with p0 := h.p1, p1 := (by intro p hp; cases hp; exact Nat.le_refl _), has := fun _ _ => rfl, ok := ?_ }
  dsimp only
  rw [h.ok]
  cases hp : s.point1 with
  | none => simp
  | some p =>
    have := h.p1 p hp
    simp only [Option.map_some, Option.getD_some, Bool.false_or, decide_eq_false_iff_not]
    omega

theorem fresh_inv {n r : Nat} {s : Sampler} (h : SInv n r s) (now : Nat) : SInv n r (s.fresh now) := by
  have h1 : SInv n r { s with ackTime := now } := { h with }
  have h2 : SInv n r (if s.avoid = true then
      (let s' := ({ s with ackTime := now, point0 := none, point1 := none } : Sampler).point now
       { s' with cands := s'.point1.toList, bad := s'.bad || s'.point1.isNone })
      else { s with ackTime := now }) := by
    split
    · unfold Sampler.point
      dsimp only
      refine { h1 with p0 := (by intro p hp; cases hp), p1 := (by intro p hp; cases hp; exact Nat.le_refl _), has := fun _ _ => rfl,
                       cs := ?_, ok := ?_ }
      · intro c hc
        simp only [Option.toList, List.mem_singleton] at hc
        rw [hc]; exact Nat.le_refl _
      · simp [h.ok]
    · exact h1
  unfold Sampler.fresh
  dsimp only
  exact { h2 with base := Nat.le_refl _ }

theorem onSent_inv {n r : Nat} {s : Sampler} (h : SInv n r s) (now pn bytes inFlight : Nat) (el : Bool) (hp : n ≤ pn) :
    SInv (pn + 1) r (s.onSent now pn bytes inFlight el) := by
  have h0 : SInv pn r s := h.mono hp (Nat.le_refl _)
  unfold Sampler.onSent
  dsimp only
  split
  · exact { h0.mono (Nat.le_succ pn) (Nat.le_refl r) with }
  · have h1 : SInv pn r { s with lastSent := pn, sent := s.sent + bytes } :=
      { h0 with base := Nat.le_trans h0.base (Nat.le_add_right _ _),
                ent := fun q hq => ⟨(h0.ent q hq).acked, (h0.ent q hq).base, Nat.le_trans (h0.ent q hq).sent (Nat.le_add_right _ _), (h0.ent q hq).valid⟩ }
    have h2 : SInv pn r (if inFlight = 0 then ({ s with lastSent := pn, sent := s.sent + bytes } : Sampler).fresh now
        else { s with lastSent := pn, sent := s.sent + bytes }) := by
      split
      · exact fresh_inv h1 now
      · exact h1
    generalize (if inFlight = 0 then ({ s with lastSent := pn, sent := s.sent + bytes } : Sampler).fresh now
        else { s with lastSent := pn, sent := s.sent + bytes }) = u at h2
    unfold Sampler.insert
    refine { h2 with sorted := sorted_snoc h2.sorted h2.below, below := ?_, ent := ?_, ok := ?_ }
    · intro p hp'
      rcases List.mem_append.1 hp' with hp' | hp'
      · exact Nat.lt_succ_of_lt (h2.below p hp')
      · rw [List.mem_singleton] at hp'
        rw [hp']; exact Nat.lt_succ_self _
    · intro q hq
      dsimp only at hq
      rw [live_append] at hq
      rcases List.mem_append.1 hq with hq | hq
      · exact h2.ent q hq
      · rw [live_some, live_nil, List.mem_singleton] at hq
        rw [hq]
        exact ⟨Nat.le_refl _, h2.base, Nat.le_refl _, rfl⟩
    · dsimp only
      rw [h2.ok, fits_of h2.below]
      rfl

theorem onNeutered_inv {n r : Nat} {s : Sampler} (h : SInv n r s) (pn : Nat) : SInv n r (s.onNeutered pn) := by
  obtain ⟨h1, h2⟩ := take_sub h.sorted pn
  exact { shrink_inv h _ h1 h2 with }

theorem onLost_inv {n r : Nat} {s : Sampler} (h : SInv n r s) (p : Lost) : SInv n r (s.onLost p).2 := by
  obtain ⟨h1, h2⟩ := take_sub h.sorted p.pn
  exact { shrink_inv h _ h1 h2 with }

theorem losses_inv {n r : Nat} : ∀ (l : List Lost) {s : Sampler} (_ : SInv n r s) (st : SendState) (k : Nat), SInv n r (s.losses st k l).2.2
  | [], _, h, _, _ => h
  | p :: l, s, h, st, k => by
    unfold Sampler.losses
    split
    · exact losses_inv l (onLost_inv h p) _ _
    · exact losses_inv l (onLost_inv h p) _ _

theorem choose_mem (acked : Nat) (fix : Bool) : ∀ l : List AckPoint,
    (∀ a, (chooseLoop acked fix l).1 = some a → a ∈ l) ∧ ∀ c ∈ (chooseLoop acked fix l).2, c ∈ l
  | [] => ⟨(by intro a h; cases h), (by intro c h; cases h)⟩
  | [a] => ⟨(by intro b h; cases h; simp), (by intro c h; exact h)⟩
  | a :: b :: l => by
    unfold chooseLoop
    split
    · split
      · exact ⟨(by intro c h; cases h; simp), (by intro c h; exact h)⟩
      · exact ⟨(by intro c h; cases h; simp), (by intro c h; exact h)⟩
    · obtain ⟨h1, h2⟩ := choose_mem acked fix (b :: l)
      exact ⟨fun c h => List.mem_cons_of_mem _ (h1 c h), fun c h => List.mem_cons_of_mem _ (h2 c h)⟩

theorem ackedPacket_inv {n r : Nat} {s : Sampler} (h : SInv n r s) (now pn : Nat) (e : Entry) (he : EntryOk s.acked s.sent e) :
    SInv n r (s.ackedPacket now pn e) ∧ (s.ackedPacket now pn e).acked = s.acked + e.size := by
  have grow : ∀ x, x ≤ s.acked → x ≤ s.acked + e.size := fun x hx => Nat.le_trans hx (Nat.le_add_right _ _)
  have hm : SInv n r ((s.credit now e).mark now) ∧ ((s.credit now e).mark now).acked = s.acked + e.size := by
    unfold Sampler.mark
    by_cases ha : s.avoid = true
    · rw [if_pos (show (s.credit now e).avoid = true from ha)]
      refine ⟨{ sorted := h.sorted, below := h.below,
                ent := fun q hq => ⟨grow _ (h.ent q hq).acked, (h.ent q hq).base, (h.ent q hq).sent, (h.ent q hq).valid⟩,
                base := he.sent, p0 := fun p hp => grow _ (h.p1 p hp), p1 := (by intro p hp; cases hp; exact Nat.le_refl _),
                cs := fun c hc => grow _ (h.cs c hc), has := fun _ _ => rfl, before := grow _ h.before, tr := h.tr, ok := ?_ }, rfl⟩
      show (s.bad || decide (s.acked + e.size < (s.point1.map AckPoint.acked).getD 0)) = false
      rw [h.ok]
      cases hp : s.point1 with
      | none => simp
      | some p =>
        have := h.p1 p hp
        simp only [Option.map_some, Option.getD_some, Bool.false_or, decide_eq_false_iff_not]
        omega
    · rw [if_neg (show ¬ (s.credit now e).avoid = true from ha)]
      exact ⟨{ sorted := h.sorted, below := h.below,
               ent := fun q hq => ⟨grow _ (h.ent q hq).acked, (h.ent q hq).base, (h.ent q hq).sent, (h.ent q hq).valid⟩,
               base := he.sent, p0 := fun p hp => grow _ (h.p0 p hp), p1 := fun p hp => grow _ (h.p1 p hp),
               cs := fun c hc => grow _ (h.cs c hc), has := fun hx => absurd hx ha, before := grow _ h.before, tr := h.tr, ok := h.ok }, rfl⟩
  exact ⟨{ hm.1 with }, hm.2⟩

theorem slope_inv {n r : Nat} {s : Sampler} (h : SInv n r s) (e : Entry) (he : e.state.acked ≤ s.acked) :
    SInv n r (s.slope e).2 ∧ (s.slope e).1.acked ≤ s.acked ∧ (s.slope e).2.acked = s.acked := by
  unfold Sampler.slope
  split
  · obtain ⟨c1, c2⟩ := choose_mem e.state.acked s.fix s.cands
    refine ⟨{ h with cs := fun c hc => h.cs c (c2 c hc) }, ?_, rfl⟩
    dsimp only
    cases hc : (chooseLoop e.state.acked s.fix s.cands).1 with
    | none => exact he
    | some a => exact h.cs a (c1 a hc)
  · exact ⟨h, he, rfl⟩

theorem onAcked_inv {n r : Nat} {s : Sampler} (h : SInv n r s) (now pn : Nat) :
    SInv n r (s.onAcked now pn).2 ∧ ∀ x, (s.onAcked now pn).1 = some x → x.state.acked ≤ (s.onAcked now pn).2.acked ∧ x.state.valid = true := by
  obtain ⟨k1, k2⟩ := take_sub h.sorted pn
  obtain ⟨t1, -, -⟩ := take_spec pn s.map h.sorted
  have h1 : SInv n r { s with lastAcked := pn, map := (s.map.take pn).2 } := { shrink_inv h _ k1 k2 with }
  unfold Sampler.onAcked
  dsimp only
  cases hx : (s.map.take pn).1 with
  | none => exact ⟨h1, by intro x hx; cases hx⟩
  | some e =>
    dsimp only
    have he : EntryOk s.acked s.sent e := by
      rw [hx] at t1
      exact h.ent _ (findPk_mem t1.symm)
    obtain ⟨a1, a2⟩ := ackedPacket_inv h1 now pn e he
    generalize Sampler.ackedPacket { s with lastAcked := pn, map := (s.map.take pn).2 } now pn e = u at a1 a2
    have hle : e.state.acked ≤ u.acked := by
      have := he.acked
      rw [a2]
      show e.state.acked ≤ s.acked + e.size
      omega
    obtain ⟨b1, b2, b3⟩ := slope_inv a1 e hle
    generalize u.slope e = v at b1 b2 b3
    refine ⟨{ b1 with ok := ?_ }, ?_⟩
    · dsimp only
      rw [b1.ok]
      unfold Sampler.sampleBad
      have := he.base
      rw [b3]
      simp only [Bool.false_or, Bool.or_eq_false_iff, Bool.and_eq_false_iff, decide_eq_false_iff_not]
      exact ⟨Or.inr (by omega), Or.inr (by omega)⟩
    · intro x hx'
      unfold mkSample at hx'
      split at hx'
      · cases hx'
      · simp only [Option.some.injEq] at hx'
        rw [← hx']
        refine ⟨?_, rfl⟩
        show e.state.acked ≤ v.2.acked
        rw [b3]; exact hle

theorem acks_inv {n r : Nat} (now : Nat) : ∀ (l : List Acked) {s : Sampler} (_ : SInv n r s) (a : AckRun), SInv n r (s.acks now a l).2
  | [], _, h, _ => h
  | pn :: l, s, h, a => by
    obtain ⟨h1, h2⟩ := onAcked_inv h now pn
    unfold Sampler.acks
    dsimp only
    split
    · exact acks_inv now l h1 a
    · next x hx =>
      have h3 : SInv n r { (s.onAcked now pn).2 with bad := (s.onAcked now pn).2.bad || decide ((s.onAcked now pn).2.acked < x.state.acked) } := by
        refine { h1 with ok := ?_ }
        dsimp only
        have := (h2 x hx).1
        rw [h1.ok]
        simp only [Bool.false_or, decide_eq_false_iff_not]
        omega
      exact acks_inv now l h3 _

theorem ackEnd_inv {n r : Nat} {s : Sampler} (h : SInv n r s) (bw : Nat) (newMax : Bool) : SInv n r (s.ackEnd bw newMax r).2 := by
  have hb := h.before
  have h1 : SInv n r { s with bad := s.bad || decide (s.acked < s.ackedBefore) } := by
    refine { h with ok := ?_ }
    dsimp only
    rw [h.ok]
    simp only [Bool.false_or, decide_eq_false_iff_not]
    omega
  unfold Sampler.ackEnd
  dsimp only
  split
  · exact h1
  · next hne =>
    have ht := tracker_inv h.tr bw newMax s.lastSent s.lastAcked s.ackTime (s.acked - s.ackedBefore)
    have h2 : SInv n r { s with
        bad := s.bad || decide (s.acked < s.ackedBefore), ackedBefore := s.acked
        tracker := (s.tracker.update bw newMax r s.lastSent s.lastAcked s.ackTime (s.acked - s.ackedBefore)).2 } :=
      { h1 with before := Nat.le_refl _, tr := ht }
    split
    · next hav =>
      have hp := h.has hav.1 (by omega)
      have hless : ∃ p, Sampler.lessRecent { s with
          bad := s.bad || decide (s.acked < s.ackedBefore), ackedBefore := s.acked
          tracker := (s.tracker.update bw newMax r s.lastSent s.lastAcked s.ackTime (s.acked - s.ackedBefore)).2 } = some p ∧ p.acked ≤ s.acked := by
        unfold Sampler.lessRecent
        dsimp only
        cases h1p : s.point1 with
        | none => rw [h1p] at hp; cases hp
        | some p =>
          have hp1 := h.p1 p h1p
          split
          · cases hf : s.point0.filter (fun p => decide (p.acked > 0)) with
            | none => exact ⟨p, rfl, hp1⟩
            | some q =>
              refine ⟨q, rfl, h.p0 q ?_⟩
              exact (Option.filter_eq_some_iff.1 hf).1
          · cases h0p : s.point0 with
            | none => exact ⟨p, rfl, hp1⟩
            | some q => exact ⟨q, rfl, h.p0 q h0p⟩
      obtain ⟨p, hl, hle⟩ := hless
      rw [hl]
      refine { h2 with cs := ?_, ok := ?_ }
      · intro c hc
        rcases List.mem_append.1 hc with hc | hc
        · exact h2.cs c hc
        · simp only [Option.toList, List.mem_singleton] at hc
          rw [hc]; exact hle
      · dsimp only
        have := h2.ok
        dsimp only at this
        rw [this]
        rfl
    · exact h2

theorem onEvent_inv {n r : Nat} {s : Sampler} (h : SInv n r s) (now : Nat) (acked : List Acked) (lost : List Lost) (maxBw upper : Nat) :
    SInv n r (s.onEvent now acked lost maxBw upper r).2 := by
  unfold Sampler.onEvent
  dsimp only
  split
  · exact losses_inv lost h _ _
  · exact ackEnd_inv (acks_inv now acked (losses_inv lost h _ _) _) _ _

theorem onAppLimited_inv {n r : Nat} {s : Sampler} (h : SInv n r s) : SInv n r s.onAppLimited := { h with }

theorem removeObsolete_inv {n r : Nat} {s : Sampler} (h : SInv n r s) (least : Nat) : SInv n r (s.removeObsolete least) := by
  unfold Sampler.removeObsolete
  refine shrink_inv h _ (drop_sub least s.map) ?_
  intro q hq
  rw [drop_live least s.map h.sorted] at hq
  exact (List.mem_filter.1 hq).1

end Verif.Bbr
