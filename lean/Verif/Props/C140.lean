import Verif.Props.C139

/-!
C140. Ack aggregation in BBR: the extra bytes reported with an acknowledgement are bytes
acknowledged beyond what the bandwidth explains, since some earlier acknowledgement.
-/

namespace Verif.Props.C140

open Verif.Bbr Verif.Props.C138 Verif.Props.C139

/-! ### Specification -/

/-- The acknowledgements of new bytes: time and bytes acknowledged before, newest first. -/
def mark (m : List (Nat × Nat)) (l : Ledger) (op : Op) : List (Nat × Nat) :=
  match op with
  | .event now _ _ _ _ _ => if (l.step op).acked = l.acked then m else (now, l.acked) :: m
  | _ => m

/-- The marks made by operations from a ledger on. -/
def marks (m : List (Nat × Nat)) (l : Ledger) : List Op → List (Nat × Nat)
  | [] => m
  | op :: ops => marks (mark m l op) (l.step op) ops

/-! ### Proof -/

/-- The tracker measures from a mark on. -/
structure TrOn (k : Nat) (m : List (Nat × Nat)) (acked : Nat) (t : Tracker) : Prop where
  factor : t.factor = k
  epoch : ∀ b, t.epochStart = some b → ∃ a, (b, a) ∈ m ∧ a + t.epochBytes = acked
  heights : ∀ e, t.filter.est = some e → (e.1.value.extra ≤ acked ∧ e.1.value.bytes ≤ acked) ∧ (e.2.1.value.extra ≤ acked ∧ e.2.1.value.bytes ≤ acked) ∧
    (e.2.2.value.extra ≤ acked ∧ e.2.2.value.bytes ≤ acked)

/-- A height that can be. -/
def Small (acked : Nat) (x : FSample Extra) : Prop := x.value.extra ≤ acked ∧ x.value.bytes ≤ acked

theorem filter_small {acked : Nat} {f f' : Filter Extra} (h : ∀ e, f.est = some e → Small acked e.1 ∧ Small acked e.2.1 ∧ Small acked e.2.2)
    (v : FSample Extra) (hv : Small acked v) (hu : f.update Extra.gt v = some f') :
    ∀ e, f'.est = some e → Small acked e.1 ∧ Small acked e.2.1 ∧ Small acked e.2.2 := by
  have hres : ∀ e, (f.reset v).est = some e → Small acked e.1 ∧ Small acked e.2.1 ∧ Small acked e.2.2 := by
    intro e he
    simp only [Filter.reset, Option.some.injEq] at he
    rw [← he]
    exact ⟨hv, hv, hv⟩
  unfold Filter.update at hu
  split at hu
  · simp only [Option.some.injEq] at hu; rw [← hu]; exact hres
  · next e he =>
    obtain ⟨h0, h1, h2⟩ := h e he
    split at hu
    · simp only [Option.some.injEq] at hu; rw [← hu]; exact hres
    · split at hu
      · split at hu
        · simp only [Option.some.injEq] at hu; rw [← hu]; exact hres
        · simp only [Option.some.injEq] at hu
          rw [← hu]
          intro e' he'
          simp only [Option.some.injEq] at he'
          rw [← he']
          obtain ⟨p0, p1, p2⟩ := place_ok (P := Small acked) Extra.gt e v h0 h1 h2 hv
          exact expire_ok (P := Small acked) f.win _ v p0 p1 p2 hv
      · cases hu

/-- The heights of a tracker. -/
def Heights (acked : Nat) (t : Tracker) : Prop := ∀ e, t.filter.est = some e → Small acked e.1 ∧ Small acked e.2.1 ∧ Small acked e.2.2

theorem feed_small {acked : Nat} {t : Tracker} (h : Heights acked t) (x : Extra) (r : Nat) (hx : x.extra ≤ acked ∧ x.bytes ≤ acked) :
    Heights acked (t.feed x r) ∧ (t.feed x r).epochStart = t.epochStart ∧ (t.feed x r).epochBytes = t.epochBytes ∧ (t.feed x r).sentBefore = t.sentBefore ∧
      (t.feed x r).factor = t.factor := by
  unfold Tracker.feed
  split
  · next f hf => exact ⟨filter_small h ⟨x, r⟩ hx hf, rfl, rfl, rfl, rfl⟩
  · exact ⟨h, rfl, rfl, rfl, rfl⟩

theorem again_small {acked : Nat} {t : Tracker} (h : Heights acked t) (bw : Nat) (x : Extra) (hx : x.bytes ≤ acked) :
    Heights acked (t.again bw x) ∧ (t.again bw x).epochStart = t.epochStart ∧ (t.again bw x).epochBytes = t.epochBytes ∧ (t.again bw x).sentBefore = t.sentBefore ∧
      (t.again bw x).factor = t.factor := by
  unfold Tracker.again
  split
  · exact feed_small h _ _ ⟨by dsimp only; omega, hx⟩
  · exact ⟨h, rfl, rfl, rfl, rfl⟩

theorem renew_small {acked : Nat} {t : Tracker} (h : Heights acked t) (bw : Nat) :
    Heights acked (t.renew bw) ∧ (t.renew bw).epochStart = t.epochStart ∧ (t.renew bw).epochBytes = t.epochBytes ∧ (t.renew bw).sentBefore = t.sentBefore ∧
      (t.renew bw).factor = t.factor := by
  have hb : (t.filter.best.getD .zero).bytes ≤ acked ∧ (t.filter.second.getD .zero).bytes ≤ acked ∧ (t.filter.third.getD .zero).bytes ≤ acked := by
    unfold Filter.best Filter.second Filter.third
    cases he : t.filter.est with
    | none => exact ⟨Nat.zero_le _, Nat.zero_le _, Nat.zero_le _⟩
    | some e =>
      obtain ⟨a, b, c⟩ := h e he
      exact ⟨a.2, b.2, c.2⟩
  have h0 : Heights acked { t with filter := t.filter.clear } := by intro e he; cases he
  obtain ⟨a1, a2, a3, a4, a5⟩ := again_small h0 bw _ hb.1
  obtain ⟨b1, b2, b3, b4, b5⟩ := again_small a1 bw _ hb.2.1
  obtain ⟨c1, c2, c3, c4, c5⟩ := again_small b1 bw _ hb.2.2
  unfold Tracker.renew
  exact ⟨c1, by rw [c2, b2, a2], by rw [c3, b3, a3], by rw [c4, b4, a4], by rw [c5, b5, a5]⟩

theorem heights_mono {a a' : Nat} {t : Tracker} (h : Heights a t) (ha : a ≤ a') : Heights a' t := by
  intro e he
  obtain ⟨⟨h1, h1'⟩, ⟨h2, h2'⟩, ⟨h3, h3'⟩⟩ := h e he
  exact ⟨⟨by omega, by omega⟩, ⟨by omega, by omega⟩, ⟨by omega, by omega⟩⟩

/-- One update of the tracker, with `bytes` acknowledged at `now`. -/
theorem update_on {k : Nat} {m : List (Nat × Nat)} {acked : Nat} {t : Tracker} (h : TrOn k m acked t) (bw : Nat) (newMax : Bool) (round lastSent lastAcked now bytes : Nat) :
    TrOn k ((now, acked) :: m) (acked + bytes) (t.update bw newMax round lastSent lastAcked now bytes).2 ∧
    (0 < (t.update bw newMax round lastSent lastAcked now bytes).1 → ∃ b a, (b, a) ∈ m ∧ a ≤ acked ∧ t.epochStart = some b ∧ lastAcked ≤ t.sentBefore ∧ k * bytesPer bw (now - b) < acked - a ∧
      (t.update bw newMax round lastSent lastAcked now bytes).1 = acked + bytes - a - bytesPer bw (now - b)) := by
  have hh : Heights acked t := h.heights
  have hu : ∀ u : Tracker, u = (if newMax = true then t.renew bw else t) →
      Heights acked u ∧ u.epochStart = t.epochStart ∧ u.epochBytes = t.epochBytes ∧ u.sentBefore = t.sentBefore ∧ u.factor = k := by
    intro u hu
    rw [hu]
    split
    · obtain ⟨a, b, c, d, e⟩ := renew_small hh bw
      exact ⟨a, b, c, d, e.trans h.factor⟩
    · exact ⟨hh, rfl, rfl, rfl, h.factor⟩
  have hnew : ∀ u : Tracker, Heights acked u → u.factor = k → TrOn k ((now, acked) :: m) (acked + bytes) (u.start lastSent now bytes) := by
    intro u hu hk
    refine ⟨hk, ?_, heights_mono hu (Nat.le_add_right _ _)⟩
    intro b hb
    simp only [Tracker.start, Option.some.injEq] at hb
    exact ⟨acked, by rw [← hb]; exact List.mem_cons_self, rfl⟩
  unfold Tracker.update
  dsimp only
  obtain ⟨u1, u2, u3, u4, u5⟩ := hu _ rfl
  generalize (if newMax = true then t.renew bw else t) = u at u1 u2 u3 u4 u5
  split
  · next begun hs =>
    split
    · exact ⟨hnew u u1 u5, fun h0 => absurd h0 (Nat.lt_irrefl 0)⟩
    · next hlast =>
      unfold Tracker.within
      dsimp only
      split
      · exact ⟨hnew u u1 u5, fun h0 => absurd h0 (Nat.lt_irrefl 0)⟩
      · next hexp =>
        obtain ⟨a, ha, hsum⟩ := h.epoch begun (by rw [← u2]; exact hs)
        rw [← u3] at hsum
        have hle : u.epochBytes + bytes ≤ acked + bytes := by omega
        have hH : Heights (acked + bytes) { u with epochBytes := u.epochBytes + bytes, bad := u.bad || decide (u.epochBytes + bytes < bytesPer bw (now - begun)) } :=
          heights_mono u1 (Nat.le_add_right _ _)
        obtain ⟨f1, f2, f3, -, f5⟩ := feed_small hH ⟨u.epochBytes + bytes - bytesPer bw (now - begun), u.epochBytes + bytes, now - begun, 0⟩ round
          ⟨by dsimp only; omega, by dsimp only; omega⟩
        refine ⟨⟨f5.trans u5, ?_, f1⟩, ?_⟩
        · intro b hb
          rw [f2] at hb
          rw [f3]
          have : begun = b := by
            have : u.epochStart = some b := hb
            rw [hs] at this
            exact Option.some.inj this
          rw [← this]
          exact ⟨a, List.mem_cons_of_mem _ ha, by show a + (u.epochBytes + bytes) = acked + bytes; omega⟩
        · intro _
          refine ⟨begun, a, ha, by omega, by rw [← u2]; exact hs, by rw [← u4]; omega, ?_, ?_⟩
          · rw [u5] at hexp
            have : acked - a = u.epochBytes := by omega
            rw [this]; exact Nat.lt_of_not_le hexp
          show u.epochBytes + bytes - bytesPer bw (now - begun) = _
          have : acked + bytes - a = u.epochBytes + bytes := by omega
          rw [this]
  · exact ⟨hnew u u1 u5, fun h0 => absurd h0 (Nat.lt_irrefl 0)⟩

/-- The sampler with its marks, between operations. -/
structure MInv (k : Nat) (m : List (Nat × Nat)) (s : Sampler) : Prop where
  level : s.ackedBefore = s.acked
  tr : TrOn k m s.acked s.tracker

theorem onLost_tr (s : Sampler) (p : Lost) : (s.onLost p).2.tracker = s.tracker ∧ (s.onLost p).2.acked = s.acked ∧ (s.onLost p).2.ackedBefore = s.ackedBefore :=
  ⟨rfl, rfl, rfl⟩

theorem losses_tr : ∀ (ls : List Lost) (s : Sampler) (st : SendState) (k : Nat), (s.losses st k ls).2.2.tracker = s.tracker ∧
    (s.losses st k ls).2.2.acked = s.acked ∧ (s.losses st k ls).2.2.ackedBefore = s.ackedBefore
  | [], _, _, _ => ⟨rfl, rfl, rfl⟩
  | p :: ls, s, st, k => by
    unfold Sampler.losses
    split
    · exact losses_tr ls (s.onLost p).2 _ _
    · exact losses_tr ls (s.onLost p).2 _ _

theorem onAcked_tr (s : Sampler) (now pn : Nat) : (s.onAcked now pn).2.tracker = s.tracker ∧ (s.onAcked now pn).2.ackedBefore = s.ackedBefore ∧
    ((s.onAcked now pn).2.acked = s.acked ∨ (s.onAcked now pn).2.ackTime = now) ∧
    ((s.onAcked now pn).2.ackTime = s.ackTime ∨ (s.onAcked now pn).2.ackTime = now) := by
  unfold Sampler.onAcked
  dsimp only
  split
  · exact ⟨rfl, rfl, Or.inl rfl, Or.inl rfl⟩
  · next e he =>
    have hp : ∀ u : Sampler, (u.ackedPacket now pn e).tracker = u.tracker ∧ (u.ackedPacket now pn e).ackedBefore = u.ackedBefore ∧
        (u.ackedPacket now pn e).ackTime = now := by
      intro u
      unfold Sampler.ackedPacket Sampler.mark
      split <;> exact ⟨rfl, rfl, rfl⟩
    have hsl : ∀ u : Sampler, (u.slope e).2.tracker = u.tracker ∧ (u.slope e).2.ackedBefore = u.ackedBefore ∧ (u.slope e).2.ackTime = u.ackTime := by
      intro u
      unfold Sampler.slope
      split <;> exact ⟨rfl, rfl, rfl⟩
    obtain ⟨a, b, c⟩ := hp { s with lastAcked := pn, map := (s.map.take pn).2 }
    obtain ⟨a', b', c'⟩ := hsl (Sampler.ackedPacket { s with lastAcked := pn, map := (s.map.take pn).2 } now pn e)
    exact ⟨by rw [a', a], by rw [b', b], Or.inr (by rw [c', c]), Or.inr (by rw [c', c])⟩

theorem acks_tr (now : Nat) : ∀ (pns : List Acked) (s : Sampler) (a : AckRun), (s.acks now a pns).2.tracker = s.tracker ∧
    (s.acks now a pns).2.ackedBefore = s.ackedBefore ∧ ((s.acks now a pns).2.acked = s.acked ∨ (s.acks now a pns).2.ackTime = now) ∧
    ((s.acks now a pns).2.ackTime = s.ackTime ∨ (s.acks now a pns).2.ackTime = now)
  | [], _, _ => ⟨rfl, rfl, Or.inl rfl, Or.inl rfl⟩
  | pn :: pns, s, a => by
    obtain ⟨h1, h2, h3, h4⟩ := onAcked_tr s now pn
    have key : ∀ u : Sampler, u.tracker = s.tracker → u.ackedBefore = s.ackedBefore → (u.acked = s.acked ∨ u.ackTime = now) → (u.ackTime = s.ackTime ∨ u.ackTime = now) →
        ∀ a, (u.acks now a pns).2.tracker = s.tracker ∧ (u.acks now a pns).2.ackedBefore = s.ackedBefore ∧
          ((u.acks now a pns).2.acked = s.acked ∨ (u.acks now a pns).2.ackTime = now) ∧ ((u.acks now a pns).2.ackTime = s.ackTime ∨ (u.acks now a pns).2.ackTime = now) := by
      intro u k1 k2 k3 k4 a
      obtain ⟨g1, g2, g3, g4⟩ := acks_tr now pns u a
      refine ⟨by rw [g1, k1], by rw [g2, k2], ?_, ?_⟩
      · rcases g3 with g3 | g3
        · rcases k3 with k3 | k3
          · exact Or.inl (by rw [g3, k3])
          · rcases g4 with g4 | g4
            · exact Or.inr (by rw [g4, k3])
            · exact Or.inr g4
        · exact Or.inr g3
      · rcases g4 with g4 | g4
        · rcases k4 with k4 | k4
          · exact Or.inl (by rw [g4, k4])
          · exact Or.inr (by rw [g4, k4])
        · exact Or.inr g4
    unfold Sampler.acks
    dsimp only
    split
    · exact key _ h1 h2 h3 h4 _
    · next x _ =>
      exact key { (s.onAcked now pn).2 with bad := (s.onAcked now pn).2.bad || decide ((s.onAcked now pn).2.acked < x.state.acked) } h1 h2 h3 h4 _

theorem event_marks {n r k : Nat} {m : List (Nat × Nat)} {l : Ledger} {s : Sampler} (hi : SInv n r s) (hr : Rel l s) (hm : MInv k m s) (e : Ev) :
    MInv k (mark m l e.op) (s.onEvent e.now e.acked e.lost e.maxBw e.upper e.round).2 ∧
    (0 < (report s e).extra → ∃ t a, (t, a) ∈ m ∧ a ≤ l.acked ∧ k * bytesPer (aggBw (report s e).maxBw e.maxBw e.upper) (e.now - t) < l.acked - a ∧
      (report s e).extra = (l.step e.op).acked - a - bytesPer (aggBw (report s e).maxBw e.maxBw e.upper) (e.now - t)) := by
  have hrel := event_rel hi hr e.now e.acked e.lost e.maxBw e.upper e.round
  obtain ⟨t1, t2, t3⟩ := losses_tr e.lost s .none 0
  have hi1 := losses_inv e.lost hi .none 0
  have hacc0 : s.acked = l.acked := hr.acked
  unfold report at *
  unfold Ev.op mark at *
  have hacc1 : (s.onEvent e.now e.acked e.lost e.maxBw e.upper e.round).2.acked = (l.step (.event e.now e.acked e.lost e.maxBw e.upper e.round)).acked := hrel.acked
  dsimp only
  rw [← hacc1, ← hacc0]
  unfold Sampler.onEvent
  dsimp only
  generalize (s.losses SendState.none 0 e.lost) = L at t1 t2 t3 hi1
  by_cases hnil : e.acked = []
  · simp only [if_pos hnil]
    rw [if_pos t2]
    refine ⟨⟨?_, ?_⟩, fun h0 => absurd h0 (Nat.lt_irrefl 0)⟩
    · show L.2.2.ackedBefore = L.2.2.acked
      rw [t3, t2, hm.level]
    · show TrOn k m L.2.2.acked L.2.2.tracker
      rw [t1, t2]; exact hm.tr
  · simp only [if_neg hnil]
    obtain ⟨a1, a2, a3, -⟩ := acks_tr e.now e.acked L.2.2 ⟨.none, .none, 0⟩
    have hi2 := acks_inv e.now e.acked hi1 ⟨.none, .none, 0⟩
    have hb := hi2.before
    generalize L.2.2.acks e.now ⟨EventSample.none, SendState.none, 0⟩ e.acked = A at a1 a2 a3 hi2 hb
    generalize optGt A.1.ev.maxBw (some e.maxBw) = nm
    generalize aggBw A.1.ev.maxBw e.maxBw e.upper = bw
    have hlev : A.2.ackedBefore = s.acked := by rw [a2, t3, hm.level]
    unfold Sampler.ackEnd
    dsimp only
    by_cases h0 : A.2.acked - A.2.ackedBefore = 0
    · rw [if_pos h0]
      have heq : A.2.acked = s.acked := by omega
      rw [if_pos (show A.2.acked = s.acked from heq)]
      refine ⟨⟨?_, ?_⟩, fun h0 => absurd h0 (Nat.lt_irrefl 0)⟩
      · show A.2.ackedBefore = A.2.acked
        omega
      · show TrOn k m A.2.acked A.2.tracker
        rw [a1, t1, heq]; exact hm.tr
    · rw [if_neg h0]
      have hne : ¬ A.2.acked = s.acked := by omega
      have htime : A.2.ackTime = e.now := by
        rcases a3 with a3 | a3
        · exfalso; apply hne; rw [a3, t2]
        · exact a3
      have hu := update_on hm.tr bw nm e.round A.2.lastSent A.2.lastAcked e.now (A.2.acked - A.2.ackedBefore)
      have hsum : s.acked + (A.2.acked - A.2.ackedBefore) = A.2.acked := by omega
      rw [hsum] at hu
      have htr : A.2.tracker = s.tracker := by rw [a1, t1]
      rw [htr, htime]
      generalize s.tracker.update bw nm e.round A.2.lastSent A.2.lastAcked e.now (A.2.acked - A.2.ackedBefore) = U at hu
      obtain ⟨u1, u2⟩ := hu
      split
      · try rw [if_neg (show ¬ A.2.acked = s.acked from hne)]
        refine ⟨⟨rfl, u1⟩, ?_⟩
        intro hpos
        obtain ⟨b, a, k1, k2, -, -, k4, k5⟩ := u2 hpos
        exact ⟨b, a, k1, k2, k4, k5⟩
      · try rw [if_neg (show ¬ A.2.acked = s.acked from hne)]
        refine ⟨⟨rfl, u1⟩, ?_⟩
        intro hpos
        obtain ⟨b, a, k1, k2, -, -, k4, k5⟩ := u2 hpos
        exact ⟨b, a, k1, k2, k4, k5⟩

theorem onSent_tr (s : Sampler) (now pn bytes inFlight : Nat) (el : Bool) : (s.onSent now pn bytes inFlight el).tracker = s.tracker ∧
    (s.onSent now pn bytes inFlight el).acked = s.acked ∧ (s.onSent now pn bytes inFlight el).ackedBefore = s.ackedBefore := by
  unfold Sampler.onSent
  dsimp only
  split
  · exact ⟨rfl, rfl, rfl⟩
  · split
    · unfold Sampler.fresh
      dsimp only
      split <;> exact ⟨rfl, rfl, rfl⟩
    · exact ⟨rfl, rfl, rfl⟩

theorem run_marks : ∀ (ops : List Op) {n r k : Nat} {m : List (Nat × Nat)} {l : Ledger} {s : Sampler}, Legal n r ops → SInv n r s → Rel l s → MInv k m s →
    MInv k (marks m l ops) (ops.foldl step s)
  | [], _, _, _, _, _, _, _, _, _, hm => hm
  | op :: ops, n, r, k, m, l, s, hl, hi, hr, hm => by
    have h1 : Legal n r [op] := legal_left [op] ops hl
    have hone := run_rel [op] h1 hi hr
    have hl' : Legal (after n r [op]).1 (after n r [op]).2 ops := by
      cases op with
      | sent now pn b f el => exact hl.2
      | event now a lo b c d => exact hl.2
      | neutered pn => exact hl
      | appLimited => exact hl
      | obsolete k => exact hl
    refine run_marks ops hl' hone.1 hone.2 ?_
    cases op with
    | sent now pn b f el =>
      obtain ⟨h1, h2, h3⟩ := onSent_tr s now pn b f el
      refine ⟨?_, ?_⟩
      · show (s.onSent now pn b f el).ackedBefore = (s.onSent now pn b f el).acked
        rw [h2, h3, hm.level]
      · show TrOn k m (s.onSent now pn b f el).acked (s.onSent now pn b f el).tracker
        rw [h1, h2]; exact hm.tr
    | event now a lo b c d => exact (event_marks hi hr hm ⟨now, a, lo, b, c, d⟩).1
    | neutered pn => exact ⟨hm.level, hm.tr⟩
    | appLimited => exact ⟨hm.level, hm.tr⟩
    | obsolete k => exact ⟨hm.level, hm.tr⟩

theorem marks_new (win : Nat) (avoid fix : Bool) (t0 : Nat) : MInv (if avoid = true then 2 else 1) [] (Sampler.new win avoid fix t0) :=
  ⟨rfl, ⟨(by cases avoid <;> rfl), (by intro b hb; cases hb), (by intro e he; cases he)⟩⟩

/-- **C140**, extra bytes: extra bytes reported with an acknowledgement are the bytes acknowledged since an earlier acknowledgement, with both,
less what the bandwidth explains in the time between; without this acknowledgement they are already more than the bandwidth explains (twice that
if overestimates are to be avoided). -/
theorem extra_exact (win : Nat) (avoid fix : Bool) (t0 : Nat) (ops : List Op) (e : Ev) (h : Legal 0 0 ops)
    (hpos : 0 < (report (run win avoid fix t0 ops) e).extra) :
    ∃ t a, (t, a) ∈ marks [] (.new t0) ops ∧ a ≤ (book t0 ops).acked ∧
      (if avoid = true then 2 else 1) * bytesPer (aggBw (report (run win avoid fix t0 ops) e).maxBw e.maxBw e.upper) (e.now - t) < (book t0 ops).acked - a ∧
      (report (run win avoid fix t0 ops) e).extra = (book t0 (ops ++ [e.op])).acked - a
        - bytesPer (aggBw (report (run win avoid fix t0 ops) e).maxBw e.maxBw e.upper) (e.now - t) := by
  have hrel := run_rel ops h (new_inv win avoid fix t0) (new_rel win avoid fix t0)
  have hm := run_marks ops h (new_inv win avoid fix t0) (new_rel win avoid fix t0) (marks_new win avoid fix t0)
  obtain ⟨t, a, h1, h2, h4, h3⟩ := (event_marks hrel.1 hrel.2 hm e).2 hpos
  refine ⟨t, a, h1, h2, h4, ?_⟩
  unfold book
  rw [List.foldl_append]
  exact h3

/-- **C140**, the height: the extra bytes kept are at most the bytes ever acknowledged. -/
theorem height_le (win : Nat) (avoid fix : Bool) (t0 : Nat) (ops : List Op) (h : Legal 0 0 ops) (x : Nat)
    (hx : (run win avoid fix t0 ops).maxAckHeight = some x) : x ≤ (book t0 ops).acked := by
  have hrel := run_rel ops h (new_inv win avoid fix t0) (new_rel win avoid fix t0)
  have hm := run_marks ops h (new_inv win avoid fix t0) (new_rel win avoid fix t0) (marks_new win avoid fix t0)
  have hacc : (run win avoid fix t0 ops).acked = (book t0 ops).acked := hrel.2.acked
  unfold Sampler.maxAckHeight Filter.best at hx
  cases he : (run win avoid fix t0 ops).tracker.filter.est with
  | none => rw [he] at hx; cases hx
  | some e =>
    rw [he] at hx
    simp only [Option.map_some, Option.some.injEq] at hx
    have := (hm.tr.heights e he).1.1
    rw [← hx, ← hacc]
    exact this

/-- The bandwidth that explains is the greater of the sample's and the maximum so far, but not above the upper bound. -/
theorem agg_exact (b : Option Nat) (maxBw upper : Nat) : aggBw b maxBw upper = min (max (b.getD 0) maxBw) upper := by
  unfold aggBw optMax
  cases b with
  | none => simp
  | some b => rfl

/-! ### Cases -/

/-- Ten packets, acknowledged in three groups shortly after each other. -/
def burst : List Op := (List.range 10).map (fun k => Op.sent (k * 1000000) k 1000 (k * 1000) true) ++
  [.event 100000000 [0, 1] [] 0 100000000000 0]

/-- The bandwidth is 160000 bits a second; in 1 ms it explains 20 bytes of the 4000. -/
example : let e : Ev := ⟨101000000, [2, 3], [], 160000, 160000, 0⟩
    Legal 0 0 (burst ++ [e.op]) ∧ (report (run 10 false false 0 burst) e).extra = 3980
      ∧ marks [] (.new 0) burst = [(100000000, 0)] ∧ (run 10 false false 0 (burst ++ [e.op])).maxAckHeight = some 3980 := by
  refine ⟨by simp [Legal, burst, Ev.op, List.range, List.range.loop], ?_⟩
  decide +kernel

/-- After a new maximum bandwidth the heights are kept as of round 0: measured in round 20 and put back in the same round, a height is
forgotten at the next one of that round, though the window is ten rounds. -/
theorem forgotten_false : ∃ (f : Filter Extra) (t : Tracker), f.win = 10 ∧ t.filter = f ∧
    -- the height was measured in round 20
    f.est = some (⟨⟨3980, 4000, 1000000, 0⟩, 20⟩, ⟨⟨3980, 4000, 1000000, 0⟩, 20⟩, ⟨⟨3980, 4000, 1000000, 0⟩, 20⟩) ∧
    -- with a new maximum it is put back
    (t.renew 320000).filter.best = some ⟨3960, 4000, 1000000, 0⟩ ∧
    -- and a smaller one of the same round replaces it
    ((t.renew 320000).feed ⟨5, 10, 10, 0⟩ 20).filter.best = some ⟨5, 10, 10, 0⟩ ∧
    -- without the new maximum it stays
    (t.feed ⟨5, 10, 10, 0⟩ 20).filter.best = some ⟨3980, 4000, 1000000, 0⟩ :=
  ⟨⟨10, some (⟨⟨3980, 4000, 1000000, 0⟩, 20⟩, ⟨⟨3980, 4000, 1000000, 0⟩, 20⟩, ⟨⟨3980, 4000, 1000000, 0⟩, 20⟩)⟩,
   ⟨⟨10, some (⟨⟨3980, 4000, 1000000, 0⟩, 20⟩, ⟨⟨3980, 4000, 1000000, 0⟩, 20⟩, ⟨⟨3980, 4000, 1000000, 0⟩, 20⟩)⟩, none, 0, 0, 1, false⟩, rfl, rfl, rfl, by decide +kernel, by decide +kernel, by decide +kernel⟩

end Verif.Props.C140
