import Verif.Small.Jump

/-!
C171: jumps of the round-trip time that a connection counts with BBR. With the detector that
compares with the least delay: a jump is counted exactly when at least three samples in a row
were above the threshold for at least three times the least delay, once for each such row. With
the hidden Markov model: only after three samples in a row whose most likely state was
`persistent`, over five round-trip times and 80 ms, never within the first eight samples, and
not again before the most likely state was `normal` for a round-trip time and 80 ms.

Logs are lists of samples, the newest first.
-/

namespace Verif.Props.C171
open Verif.Jump

/-! ### The detector with the least delay -/

/-- A sample: the delay, its time, and whether the full bandwidth had been reached. -/
structure S where
  rtt : Nat
  now : Nat
  full : Bool

/-- The least delay of a log. -/
def least : List S → Nat
  | [] => 0
  | [x] => x.rtt
  | x :: l => min (least l) x.rtt

/-- A sample as judged: above the threshold or not, its time, and the least delay before. -/
structure V where
  high : Bool
  now : Nat
  base : Nat

/-- The samples that are judged: those after the full bandwidth was reached, except the very
first. -/
def verdicts (thr : Nat → Nat) : List S → List V
  | [] => []
  | x :: l => if x.full = true ∧ l ≠ [] then ⟨decide (thr (least l) < x.rtt), x.now, least l⟩ :: verdicts thr l else verdicts thr l

/-- The row of samples above the threshold that goes on. -/
def row (thr : Nat → Nat) (l : List S) : List V := (verdicts thr l).takeWhile (·.high)

/-- A row that is long enough, in samples and in time. -/
def Sustained (r : List V) : Prop :=
  ∃ f o, r.head? = some f ∧ r.getLast? = some o ∧ 3 ≤ r.length ∧ 3 * f.base ≤ f.now - o.now

/-- A row that was long enough at some time. -/
def Settled (r : List V) : Prop := ∃ t, t <:+ r ∧ Sustained t

/-- The detector after a log. -/
def state (thr : Nat → Nat) : List S → GlobalMin
  | [] => {}
  | x :: l => ((state thr l).sample thr x.rtt x.now x.full).1

/-- What the detector reports for a sample after a log. -/
def report (thr : Nat → Nat) (x : S) (l : List S) : Option Nat := ((state thr l).sample thr x.rtt x.now x.full).2

theorem settled_cons (v : V) (r : List V) : Settled (v :: r) ↔ Sustained (v :: r) ∨ Settled r := by
  unfold Settled
  constructor
  · rintro ⟨t, h1, h2⟩
    rcases List.suffix_cons_iff.mp h1 with rfl | h
    · exact Or.inl h2
    · exact Or.inr ⟨t, h, h2⟩
  · rintro (h | ⟨t, h1, h2⟩)
    · exact ⟨_, List.suffix_refl _, h⟩
    · exact ⟨t, h1.trans (List.suffix_cons ..), h2⟩

theorem not_settled_nil : ¬ Settled [] := by
  rintro ⟨t, h1, f, o, h2, _⟩
  rw [List.suffix_nil.mp h1] at h2
  cases h2

theorem sustained_cons (v o : V) (r : List V) (hr : r.getLast? = some o) :
    Sustained (v :: r) ↔ 3 ≤ r.length + 1 ∧ 3 * v.base ≤ v.now - o.now := by
  unfold Sustained
  have hl : (v :: r).getLast? = some o := by
    cases r with
    | nil => cases hr
    | cons a r => simpa [List.getLast?_cons_cons] using hr
  rw [hl]
  constructor
  · rintro ⟨f, o', h1, h2, h3, h4⟩
    cases h1; cases h2
    exact ⟨h3, h4⟩
  · rintro ⟨h3, h4⟩
    exact ⟨v, o, rfl, rfl, h3, h4⟩

/-- The episode that belongs to a row. -/
def Matches (e : Episode) (r : List V) : Prop :=
  match e with
  | .idle => r = []
  | .active n s => ∃ o, r.getLast? = some o ∧ o.now = s ∧ r.length = n ∧ ¬ Settled r
  | .persistent => Settled r

theorem next_matches (e : Episode) (r : List V) (v : V) (h : Matches e r) :
    Matches (e.next v.high v.base v.now).1 (if v.high then v :: r else []) ∧
    ∀ t, (e.next v.high v.base v.now).2 = some t ↔
      v.high = true ∧ Sustained (v :: r) ∧ ¬ Settled r ∧ ∃ o, (v :: r).getLast? = some o ∧ o.now = t := by
  rcases v with ⟨high, now, base⟩
  cases high with
  | false =>
    cases e <;> simp [Episode.next, Matches]
  | true =>
    cases e with
    | idle =>
      simp only [Matches] at h
      subst h
      refine ⟨?_, fun t => ?_⟩
      · simp only [Episode.next, if_true, Matches]
        refine ⟨_, rfl, rfl, rfl, ?_⟩
        rw [settled_cons]
        rintro (⟨f, o, _, _, h3, _⟩ | g)
        · simp at h3
        · exact not_settled_nil g
      · simp only [Episode.next, if_true]
        constructor
        · intro g; cases g
        · rintro ⟨_, ⟨f, o, _, _, h3, _⟩, _⟩
          simp at h3
    | active n s =>
      obtain ⟨o, h1, h2, h3, h4⟩ := h
      have hs := sustained_cons ⟨true, now, base⟩ o r h1
      have hl : ((⟨true, now, base⟩ : V) :: r).getLast? = some o := by
        cases r with
        | nil => cases h1
        | cons a r => simpa [List.getLast?_cons_cons] using h1
      simp only [Episode.next, Bool.true_eq_false, if_false, if_true, confirmSamples, confirmTimes]
      by_cases hc : n + 1 ≥ 3 ∧ now - s ≥ base * 3
      · rw [if_pos hc]
        have hsus : Sustained (⟨true, now, base⟩ :: r) := hs.mpr (by simp only; omega)
        refine ⟨(settled_cons ..).mpr (Or.inl hsus), fun t => ⟨fun g => ?_, ?_⟩⟩
        · cases g
          exact ⟨trivial, hsus, h4, o, hl, h2⟩
        · rintro ⟨_, _, _, o', g1, g2⟩
          rw [hl] at g1
          cases g1
          simp only; rw [← g2, h2]
      · rw [if_neg hc]
        have hn : ¬ Sustained (⟨true, now, base⟩ :: r) := fun g => hc (by have := hs.mp g; simp only at this; omega)
        refine ⟨⟨o, hl, h2, by simp [h3], ?_⟩, fun t => ⟨fun g => (by cases g), fun g => absurd g.2.1 hn⟩⟩
        rw [settled_cons]
        rintro (g | g)
        · exact hn g
        · exact h4 g
    | persistent =>
      simp only [Matches] at h
      simp only [Episode.next, Bool.true_eq_false, if_false, if_true]
      exact ⟨(settled_cons ..).mpr (Or.inr h), fun t => ⟨fun g => (by cases g), fun g => absurd h g.2.2.1⟩⟩

/-- The detector knows the least delay and the row. -/
structure Inv (thr : Nat → Nat) (l : List S) : Prop where
  base : (state thr l).baseline = if l.isEmpty then none else some (least l)
  ep : Matches (state thr l).episode (row thr l)

theorem least_cons (x : S) (l : List S) (h : l ≠ []) : least (x :: l) = min (least l) x.rtt := by
  cases l with
  | nil => exact absurd rfl h
  | cons a l => rfl

theorem row_skip (thr : Nat → Nat) (x : S) (l : List S) (h : ¬ (x.full = true ∧ l ≠ [])) : row thr (x :: l) = row thr l := by
  unfold row
  rw [verdicts, if_neg h]

theorem row_cons (thr : Nat → Nat) (x : S) (l : List S) (h : x.full = true ∧ l ≠ []) :
    row thr (x :: l) = if thr (least l) < x.rtt then ⟨true, x.now, least l⟩ :: row thr l else [] := by
  unfold row
  rw [verdicts, if_pos h]
  by_cases g : thr (least l) < x.rtt <;> simp [g]

theorem state_inv (thr : Nat → Nat) (l : List S) : Inv thr l := by
  induction l with
  | nil => exact ⟨rfl, rfl⟩
  | cons x l ih =>
    obtain ⟨hb, he⟩ := ih
    have hbase : ∀ g : GlobalMin, g.baseline = (state thr l).baseline →
        (g.updateBaseline x.rtt).baseline = if (x :: l).isEmpty then none else some (least (x :: l)) := by
      intro g hg
      simp only [GlobalMin.updateBaseline, List.isEmpty_cons, Bool.false_eq_true, if_false]
      rw [hg, hb]
      cases l with
      | nil => rfl
      | cons a l => rfl
    by_cases hj : x.full = true ∧ l ≠ []
    · have hne : l.isEmpty = false := by cases l with
        | nil => exact absurd rfl hj.2
        | cons => rfl
      rw [hne] at hb
      simp only [Bool.false_eq_true, if_false] at hb
      have hs : state thr (x :: l) = ({ state thr l with episode := ((state thr l).episode.next (decide (x.rtt > thr (least l))) (least l) x.now).1 } : GlobalMin).updateBaseline x.rtt := by
        simp only [state, GlobalMin.sample, hj.1, Bool.true_eq_false, if_false, hb]
      have key := (next_matches (state thr l).episode (row thr l) ⟨decide (thr (least l) < x.rtt), x.now, least l⟩ he).1
      refine ⟨by rw [hs]; exact hbase _ rfl, ?_⟩
      rw [hs, row_cons thr x l hj]
      simp only [GlobalMin.updateBaseline]
      by_cases g : thr (least l) < x.rtt
      · simp only [g, decide_true, if_true] at key
        simp only [gt_iff_lt, g, decide_true, if_true]
        exact key
      · simp only [g, decide_false, Bool.false_eq_true, if_false] at key
        simp only [gt_iff_lt, g, decide_false, if_false]
        exact key
    · have hs : state thr (x :: l) = (state thr l).updateBaseline x.rtt := by
        simp only [state, GlobalMin.sample]
        by_cases hf : x.full = false
        · rw [if_pos hf]
        · rw [if_neg hf]
          have : l = [] := Classical.byContradiction (fun g => hj ⟨by simpa using hf, g⟩)
          subst this
          rfl
      refine ⟨by rw [hs]; exact hbase _ rfl, ?_⟩
      rw [hs, row_skip thr x l hj]
      exact he

/-- C171, least delay: a jump is counted exactly at the sample with which a row above the
threshold becomes long enough; its time is that of the first of the row. -/
theorem report_iff (thr : Nat → Nat) (x : S) (l : List S) (t : Nat) :
    report thr x l = some t ↔
      (x.full = true ∧ l ≠ []) ∧ Sustained (row thr (x :: l)) ∧ ¬ Settled (row thr l) ∧
        ∃ o, (row thr (x :: l)).getLast? = some o ∧ o.now = t := by
  obtain ⟨hb, he⟩ := state_inv thr l
  by_cases hj : x.full = true ∧ l ≠ []
  · have hne : l.isEmpty = false := by cases l with
      | nil => exact absurd rfl hj.2
      | cons => rfl
    rw [hne] at hb
    simp only [Bool.false_eq_true, if_false] at hb
    have hr : report thr x l = ((state thr l).episode.next (decide (x.rtt > thr (least l))) (least l) x.now).2 := by
      simp only [report, GlobalMin.sample, hj.1, Bool.true_eq_false, if_false, hb]
    have key := (next_matches (state thr l).episode (row thr l) ⟨decide (thr (least l) < x.rtt), x.now, least l⟩ he).2 t
    rw [hr, row_cons thr x l hj]
    simp only [gt_iff_lt] at key ⊢
    rw [key]
    by_cases g : thr (least l) < x.rtt
    · simp only [g, decide_true, if_true, true_and]
      exact ⟨fun q => ⟨hj, q⟩, fun q => q.2⟩
    · simp only [g, decide_false, if_false, Bool.false_eq_true, false_and]
      refine ⟨fun q => q.elim, fun q => ?_⟩
      obtain ⟨f, o, h, _⟩ := q.2.1
      cases h
  · refine ⟨fun q => ?_, fun q => absurd q.1 hj⟩
    simp only [report, GlobalMin.sample] at q
    by_cases hf : x.full = false
    · rw [if_pos hf] at q; cases q
    · rw [if_neg hf] at q
      have : l = [] := Classical.byContradiction (fun g => hj ⟨by simpa using hf, g⟩)
      subst this
      cases q

/-- C171, least delay: between two jumps that are counted there is a sample not above the
threshold. -/
theorem once (thr : Nat → Nat) (x y : S) (l mid : List S) (s t : Nat) (h1 : report thr x l = some s)
    (h2 : report thr y (mid ++ x :: l) = some t) :
    ∃ a z b, mid = a ++ z :: b ∧ z.full = true ∧ z.rtt ≤ thr (least (b ++ x :: l)) := by
  refine Classical.byContradiction (fun hn => ?_)
  have hset : Settled (row thr (x :: l)) := ⟨_, List.suffix_refl _, ((report_iff thr x l s).mp h1).2.1⟩
  have key : ∀ m, (∃ a, mid = a ++ m) → Settled (row thr (m ++ x :: l)) := by
    intro m
    induction m with
    | nil => intro _; exact hset
    | cons z m ih =>
      rintro ⟨a, ha⟩
      have hi := ih ⟨a ++ [z], by simp [ha]⟩
      by_cases hj : z.full = true ∧ m ++ x :: l ≠ []
      · rw [List.cons_append, row_cons thr z _ hj]
        have : thr (least (m ++ x :: l)) < z.rtt := by
          apply Classical.byContradiction
          intro g
          exact hn ⟨a, z, m, ha, hj.1, by omega⟩
        rw [if_pos this]
        exact (settled_cons ..).mpr (Or.inr hi)
      · rw [List.cons_append, row_skip thr z _ hj]
        exact hi
  exact ((report_iff thr y _ t).mp h2).2.2.1 (key mid ⟨[], rfl⟩)

/-- C171, least delay: what is reported needs three samples above the threshold; a shorter
spike is not counted. -/
theorem spike (thr : Nat → Nat) (x : S) (l : List S) (h : (row thr (x :: l)).length < 3) : report thr x l = none := by
  cases hr : report thr x l with
  | none => rfl
  | some t =>
    obtain ⟨f, o, _, _, h3, _⟩ := ((report_iff thr x l t).mp hr).2.1
    omega

/-! ### The detector with the hidden Markov model -/

/-- A sample with the most likely state after it. -/
structure R where
  rtt : Nat
  now : Nat
  full : Bool
  raw : Hmm

/-- The detector after a log. -/
def hstate : List R → HmmDet
  | [] => {}
  | x :: l => ((hstate l).sample x.rtt x.now x.full x.raw).1

/-- What the detector reports for a sample after a log. -/
def hreport (x : R) (l : List R) : Option Nat := ((hstate l).sample x.rtt x.now x.full x.raw).2

/-- The newest samples agree on a state since the time `t`, all of them after the first eight. -/
def Agree (s : Hmm) (r rest : List R) (t : Nat) : Prop :=
  8 ≤ rest.length ∧ (∀ y ∈ r, y.full = true ∧ y.raw = s) ∧ ∃ o, r.getLast? = some o ∧ o.now = t

/-- The detector has counted the samples that agree. -/
structure HInv (d : HmmDet) (l : List R) : Prop where
  seen : d.seen = l.length
  agree : ∀ t, d.start = some t → ∃ r rest, l = r ++ rest ∧ r.length = d.samples ∧ Agree d.pending r rest t

theorem getLast_cons {α : Type} (x o : α) (r : List α) (h : r.getLast? = some o) : (x :: r).getLast? = some o := by
  cases r with
  | nil => cases h
  | cons a r => simpa [List.getLast?_cons_cons] using h

/-- Counting a sample. -/
theorem pend_agree (d : HmmDet) (l : List R) (x : R) (h : HInv d l) (hl : 8 ≤ l.length) (hx : x.full = true) :
    ∃ t r rest, (d.pend x.raw x.now).start = some t ∧ x :: l = r ++ rest ∧ r.length = (d.pend x.raw x.now).samples ∧
      Agree x.raw r rest t ∧ (d.pend x.raw x.now).pending = x.raw ∧ (d.pend x.raw x.now).episode = d.episode ∧
      (d.pend x.raw x.now).counted = d.counted ∧ (d.pend x.raw x.now).seen = d.seen := by
  unfold HmmDet.pend
  by_cases hc : x.raw ≠ d.pending ∨ d.start = none
  · rw [if_pos hc]
    refine ⟨x.now, [x], l, rfl, rfl, rfl, ⟨hl, ?_, x, rfl, rfl⟩, rfl, rfl, rfl, rfl⟩
    intro y hy
    simp only [List.mem_singleton] at hy
    subst hy
    exact ⟨hx, rfl⟩
  · rw [if_neg hc]
    have hp : x.raw = d.pending := Classical.byContradiction (fun g => hc (Or.inl g))
    cases hs : d.start with
    | none => exact absurd (Or.inr hs) hc
    | some t =>
      obtain ⟨r, rest, h1, h2, h3, h4, o, h5, h6⟩ := h.agree t hs
      refine ⟨t, x :: r, rest, rfl, by rw [h1]; rfl, by simp [h2], ⟨h3, ?_, o, getLast_cons x o r h5, h6⟩, hp.symm, rfl, rfl, rfl⟩
      intro y hy
      rcases List.mem_cons.mp hy with rfl | hy
      · exact ⟨hx, rfl⟩
      · rw [hp]; exact h4 y hy

/-- A sample after the first eight that differs from the committed state. -/
theorem sample_cases (d : HmmDet) (l : List R) (x : R) (h : HInv d l) :
    (((d.sample x.rtt x.now x.full x.raw).2 = none ∧ (d.sample x.rtt x.now x.full x.raw).1.counted = d.counted ∧
      HInv (d.sample x.rtt x.now x.full x.raw).1 (x :: l)) ∨
    ∃ t r rest, x :: l = r ++ rest ∧ Agree x.raw r rest t ∧ (x.raw = .persistent → 3 ≤ r.length) ∧ x.raw ≠ d.episode ∧
      x.now - t ≥ dwell d.episode x.raw x.rtt ∧
      (d.sample x.rtt x.now x.full x.raw).1.start = none ∧ (d.sample x.rtt x.now x.full x.raw).1.seen = d.seen + 1 ∧
      (d.sample x.rtt x.now x.full x.raw).2 = (if x.raw = .persistent ∧ d.counted = false then some t else none) ∧
      (d.sample x.rtt x.now x.full x.raw).1.counted = (match x.raw with | .persistent => true | .transient => d.counted | .normal => false)) := by
  unfold HmmDet.sample
  simp only
  by_cases hw : d.seen + 1 ≤ warmup
  · rw [if_pos hw]
    refine Or.inl ⟨rfl, rfl, by simp [h.seen], ?_⟩
    intro t ht
    simp only at ht
    obtain ⟨r, rest, h1, h2, h3, _⟩ := h.agree t ht
    have := h.seen
    rw [h1, List.length_append] at this
    simp only [warmup] at hw
    omega
  · rw [if_neg hw]
    have hl : 8 ≤ l.length := by have := h.seen; simp only [warmup] at hw; omega
    by_cases hf : x.full = false
    · rw [if_pos hf]
      exact Or.inl ⟨rfl, rfl, by simp [HmmDet.reset, h.seen], fun t ht => by simp [HmmDet.reset] at ht⟩
    · rw [if_neg hf]
      by_cases he : x.raw = d.episode
      · rw [if_pos he]
        exact Or.inl ⟨rfl, rfl, by simp [HmmDet.reset, h.seen], fun t ht => by simp [HmmDet.reset] at ht⟩
      · rw [if_neg he]
        have hx : x.full = true := by simpa using hf
        have hi : HInv ({ d with seen := d.seen } : HmmDet) l := h
        have hps : (({ d with seen := d.seen + 1 } : HmmDet).pend x.raw x.now) = { d.pend x.raw x.now with seen := d.seen + 1 } := by
          unfold HmmDet.pend
          by_cases hc : x.raw ≠ d.pending ∨ d.start = none
          · rw [if_pos hc, if_pos hc]
          · rw [if_neg hc, if_neg hc]
        obtain ⟨t, r, rest, p1, p2, p3, p4, p5, p6, p7, p8⟩ := pend_agree d l x h hl hx
        rw [hps]
        unfold HmmDet.settle
        simp only [p1, Option.getD_some, p6]
        by_cases hc : (x.raw ≠ .persistent ∨ (d.pend x.raw x.now).samples ≥ persistSamples) ∧ x.now - t ≥ dwell d.episode x.raw x.rtt
        · rw [if_pos hc]
          refine Or.inr ⟨t, r, rest, p2, p4, ?_, he, hc.2, ?_⟩
          · intro hp
            rcases hc.1 with g | g
            · exact absurd hp g
            · rw [p3]; exact g
          · unfold HmmDet.commit
            cases hr : x.raw with
            | persistent => cases hcd : d.counted <;> simp [HmmDet.reset, p7, hr, hcd] <;> simp [← hr, p7, hcd]
            | transient => simp [HmmDet.reset]; simp [← hr, p7]
            | normal => simp [HmmDet.reset]
        · rw [if_neg hc]
          refine Or.inl ⟨rfl, p7, by simp [h.seen], ?_⟩
          intro t' ht'
          simp only [p1, Option.some.injEq] at ht'
          subst ht'
          exact ⟨r, rest, p2, p3, by simpa [p5] using p4⟩

theorem hstate_inv (l : List R) : HInv (hstate l) l := by
  induction l with
  | nil => exact ⟨rfl, fun t ht => by cases ht⟩
  | cons x l ih =>
    rcases sample_cases (hstate l) l x ih with ⟨_, _, h⟩ | ⟨t, r, rest, _, _, _, _, _, h1, h2, _⟩
    · exact h
    · refine ⟨by show (((hstate l).sample x.rtt x.now x.full x.raw).1).seen = _; rw [h2, ih.seen]; rfl, ?_⟩
      intro t' ht'
      rw [show (hstate (x :: l)).start = none from h1] at ht'
      cases ht'

/-- C171, Markov model: what a jump that is counted takes. -/
theorem hmm_report (x : R) (l : List R) (t : Nat) (h : hreport x l = some t) :
    ∃ r rest, x :: l = r ++ rest ∧ 8 ≤ rest.length ∧ 3 ≤ r.length ∧ (∀ y ∈ r, y.full = true ∧ y.raw = .persistent) ∧
      (∃ o, r.getLast? = some o ∧ o.now = t) ∧ 80000000 ≤ x.now - t ∧ 5 * x.rtt ≤ x.now - t ∧
      (hstate l).counted = false ∧ (hstate (x :: l)).counted = true := by
  rcases sample_cases (hstate l) l x (hstate_inv l) with ⟨h1, _⟩ | ⟨t', r, rest, h1, h2, h3, h4, h5, _, _, h6, h7⟩
  · rw [show hreport x l = none from h1] at h; cases h
  · have h' : (if x.raw = .persistent ∧ (hstate l).counted = false then some t' else none) = some t := by rw [← h6]; exact h
    split at h'
    · rename_i hc
      cases h'
      have hd : max 80000000 (x.rtt * 5) ≤ dwell (hstate l).episode x.raw x.rtt := by
        rw [hc.1] at h4 ⊢
        simp only [dwell, minDwell]
        cases he : (hstate l).episode with
        | normal => simp [Hmm.index]
        | transient => simp [Hmm.index]
        | persistent => exact absurd he.symm h4
      refine ⟨r, rest, h1, h2.1, h3 hc.1, fun y hy => ?_, h2.2.2, by omega, by omega, hc.2, ?_⟩
      · rw [← hc.1]; exact h2.2.1 y hy
      · show (((hstate l).sample x.rtt x.now x.full x.raw).1).counted = true
        rw [h7, hc.1]
    · cases h'

/-- C171, Markov model: between two jumps that are counted, the most likely state was `normal`
for a round-trip time and 80 ms without a break. -/
theorem hmm_once (x y : R) (l mid : List R) (s t : Nat) (h1 : hreport x l = some s) (h2 : hreport y (mid ++ x :: l) = some t) :
    ∃ a r b f o, mid = a ++ r ++ b ∧ (∀ z ∈ r, z.full = true ∧ z.raw = .normal) ∧ r.head? = some f ∧ r.getLast? = some o ∧
      80000000 ≤ f.now - o.now ∧ f.rtt ≤ f.now - o.now := by
  obtain ⟨r1, rest1, q1, _, q3, q4, _, _, _, _, q9⟩ := hmm_report x l s h1
  obtain ⟨_, _, _, _, _, _, _, _, _, w8, _⟩ := hmm_report y _ t h2
  have hxr : x.raw = .persistent := by
    cases r1 with
    | nil => simp at q3
    | cons z r1 =>
      simp only [List.cons_append, List.cons.injEq] at q1
      rw [q1.1]; exact (q4 z (List.mem_cons_self ..)).2
  have key : ∀ m, (∃ a, mid = a ++ m) → (hstate (m ++ x :: l)).counted = false →
      ∃ a z b, mid = a ++ z :: b ∧ (hstate (b ++ x :: l)).counted = true ∧ (hstate (z :: (b ++ x :: l))).counted = false := by
    intro m
    induction m with
    | nil =>
      intro _ hc
      rw [List.nil_append, q9] at hc
      cases hc
    | cons z m ih =>
      rintro ⟨a, ha⟩ hc
      cases hb : (hstate (m ++ x :: l)).counted with
      | false => exact ih ⟨a ++ [z], by simp [ha]⟩ hb
      | true => exact ⟨a, z, m, ha, hb, hc⟩
  obtain ⟨a, z, b, ha, hb1, hb2⟩ := key mid ⟨[], rfl⟩ w8
  rcases sample_cases (hstate (b ++ x :: l)) (b ++ x :: l) z (hstate_inv _) with ⟨_, g, _⟩ | ⟨t', r, rest, g1, g2, _, _, g5, _, _, _, g7⟩
  · rw [show (hstate (z :: (b ++ x :: l))).counted = (hstate (b ++ x :: l)).counted from g, hb1] at hb2
    cases hb2
  · rw [show (hstate (z :: (b ++ x :: l))).counted = _ from g7] at hb2
    have hz : z.raw = .normal := by
      cases hr : z.raw with
      | normal => rfl
      | transient => rw [hr, hb1] at hb2; cases hb2
      | persistent => rw [hr] at hb2; cases hb2
    rw [hz] at g2 g5
    -- the row ends before `x`
    have hlen : r.length ≤ (z :: b).length := by
      apply Classical.byContradiction
      intro hlt
      have hm : x ∈ r := by
        have hg : (r ++ rest)[(z :: b).length]? = some x := by
          rw [← g1]
          rw [show z :: (b ++ x :: l) = (z :: b) ++ x :: l from rfl, List.getElem?_append_right (Nat.le_refl _)]
          simp
        rw [List.getElem?_append_left (by omega)] at hg
        exact List.mem_of_getElem? hg
      have := (g2.2.1 x hm).2
      rw [hxr] at this
      cases this
    obtain ⟨c, hc⟩ : ∃ c, z :: b = r ++ c := by
      refine ⟨(z :: b).drop r.length, ?_⟩
      have h3 : (z :: b).take r.length = r := by
        have := congrArg (List.take r.length) g1
        rw [show z :: (b ++ x :: l) = (z :: b) ++ x :: l from rfl, List.take_append_of_le_length hlen, List.take_left] at this
        exact this
      rw [← h3, List.length_take, Nat.min_eq_left hlen]
      exact (List.take_append_drop r.length (z :: b)).symm
    obtain ⟨o, ho1, ho2⟩ := g2.2.2
    have hhead : r.head? = some z := by
      cases r with
      | nil => cases ho1
      | cons w r =>
        simp only [List.cons_append, List.cons.injEq] at hc
        rw [hc.1]; rfl
    refine ⟨a, r, c, z, o, by rw [ha, hc, List.append_assoc], g2.2.1, hhead, ho1, ?_, ?_⟩
    · rw [ho2]
      have : minDwell ≤ dwell (hstate (b ++ x :: l)).episode .normal z.rtt := by simp only [dwell]; exact Nat.le_max_left ..
      simp only [minDwell] at this
      omega
    · rw [ho2]
      have : z.rtt ≤ dwell (hstate (b ++ x :: l)).episode .normal z.rtt := by
        simp only [dwell]
        split <;> omega
      omega

/-- Three samples of 500 ms after one of 100 ms, over 300 ms: one jump, at the first of them; a
fourth one is not counted again. -/
example : report (3 * ·) ⟨500, 1300, true⟩ [⟨500, 1150, true⟩, ⟨500, 1000, true⟩, ⟨100, 500, true⟩] = some 1000 ∧
    report (3 * ·) ⟨500, 1299, true⟩ [⟨500, 1150, true⟩, ⟨500, 1000, true⟩, ⟨100, 500, true⟩] = none ∧
    report (3 * ·) ⟨500, 1400, true⟩ [⟨500, 1300, true⟩, ⟨500, 1150, true⟩, ⟨500, 1000, true⟩, ⟨100, 500, true⟩] = none := by
  decide

/-- Eight samples, then three that are most likely persistent over 80 ms. -/
example : hreport ⟨10000000, 180000000, true, .persistent⟩
      [⟨10000000, 140000000, true, .persistent⟩, ⟨10000000, 100000000, true, .persistent⟩, ⟨10, 8, true, .normal⟩, ⟨10, 7, true, .normal⟩,
        ⟨10, 6, true, .normal⟩, ⟨10, 5, true, .normal⟩, ⟨10, 4, true, .normal⟩, ⟨10, 3, true, .normal⟩, ⟨10, 2, true, .normal⟩,
        ⟨10, 1, true, .normal⟩] = some 100000000 ∧
    hreport ⟨10000000, 180000000, true, .persistent⟩
      [⟨10000000, 140000000, true, .persistent⟩, ⟨10000000, 100000000, true, .persistent⟩, ⟨10, 8, true, .normal⟩] = none := by
  decide

end Verif.Props.C171
