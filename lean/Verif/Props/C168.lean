import Verif.Props.C126

/-!
C168: HyStart++ goes over to conservative slow start when the delays of a round have risen, and
from there to congestion avoidance after five rounds. What it decides on is what was measured;
but one ACK frame for eight packets counts as eight measurements, and rounds counted before a
loss are not forgotten.
-/

namespace Verif.Props.C168
open Verif.Cong

/-- What happens to a sender in slow start: a packet is sent, an ACK frame with one measurement
acknowledges packets, a loss is found. -/
inductive Ev where
  | sent (pn : Nat)
  | ack (pn rtt now : Nat)
  | loss
  deriving DecidableEq, Repr

def step (h : Hystart) : Ev → Hystart
  | .sent pn => h.startRound pn
  | .ack pn rtt now => (h.onAcked pn rtt now).2
  | .loss => h.event

def css (h : Hystart) : Bool := h.inCss

/-! ### What was measured -/

/-- A record of all that happened. -/
structure Log where
  /-- The packet whose acknowledgement ends the round. -/
  opened : Option Nat := none
  /-- The measurements of the round before and of this one. -/
  prev : List Nat := []
  cur : List Nat := []
  /-- Those of the round in which conservative slow start began, up to then. -/
  base : List Nat := []
  /-- There was no conservative slow start in this round. -/
  calm : Bool := true
  /-- Rounds that ended in conservative slow start since it began. -/
  ends : Nat := 0
  deriving DecidableEq, Repr

/-- The acknowledgement of `pn` ends the round. -/
def Log.final (l : Log) (pn : Nat) : Bool := l.opened.any fun w => decide (w ≤ pn)

/-- The log after an event before which, and after which, there is conservative slow start or
not. -/
def Log.note (l : Log) (before after : Bool) : Ev → Log
  | .sent pn =>
    if l.opened.isNone then { l with opened := some pn, prev := l.cur, cur := [], calm := !before } else l
  | .ack pn rtt _ =>
    { l with
      opened := if l.final pn then none else l.opened
      cur := rtt :: l.cur
      base := if !before && after then rtt :: l.cur else l.base
      calm := l.calm && !after
      ends := (if !before && after then 0 else l.ends) + if after && l.final pn then 1 else 0 }
  | .loss => { l with opened := none }

def both (x : Hystart × Log) (e : Ev) : Hystart × Log := (step x.1 e, x.2.note (css x.1) (css (step x.1 e)) e)

def run (evs : List Ev) : Hystart × Log := evs.foldl both (Hystart.new true, {})

/-- `o` is the least element of `l`. -/
def Least (l : List Nat) : Option Nat → Prop
  | none => l = []
  | some m => m ∈ l ∧ ∀ x ∈ l, m ≤ x

theorem least_sample {l : List Nat} {h : Hystart} (hl : Least l h.curMin) (x : Nat) : Least (x :: l) (h.sample x).curMin := by
  unfold Hystart.sample
  dsimp only
  cases ho : h.curMin with
  | none =>
    rw [ho] at hl
    have : l = [] := hl
    subst this
    exact ⟨by simp, by simp⟩
  | some c =>
    rw [ho] at hl
    obtain ⟨h1, h2⟩ := hl
    show Least (x :: l) (some (Nat.min c x))
    refine ⟨?_, ?_⟩
    · by_cases hc : c ≤ x
      · rw [show Nat.min c x = c from Nat.min_eq_left hc]
        simp [h1]
      · rw [show Nat.min c x = x from Nat.min_eq_right (by omega)]
        simp
    · intro y hy
      rcases List.mem_cons.1 hy with rfl | hy
      · exact Nat.min_le_right ..
      · exact Nat.le_trans (Nat.min_le_left ..) (h2 y hy)

/-- The state goes with the log. -/
structure Inv (h : Hystart) (l : Log) : Prop where
  enabled : h.enabled = true
  opened : h.windowEnd = l.opened
  last : Least l.prev h.lastMin
  cur : Least l.cur h.curMin
  base : h.cssStart.isSome = true → Least l.base h.baseMin ∧ l.base ≠ []
  count : h.samples ≤ l.cur.length
  calm : l.calm = true → h.cssStart = none ∧ h.samples = l.cur.length

theorem css_eq {h : Hystart} (he : h.enabled = true) : css h = h.cssStart.isSome := by simp [css, Hystart.inCss, he]

/-- The round end changes neither the measurements nor the phase. -/
theorem roundEnd_eq (h : Hystart) (pn : Nat) : ∃ n, (h.roundEnd pn).2 =
    { h with windowEnd := if (h.windowEnd.any fun w => decide (w ≤ pn)) then none else h.windowEnd, rounds := n } ∧
    ((h.windowEnd.any fun w => decide (w ≤ pn)) = false ∨ h.cssStart = none → n = h.rounds ∧ (h.roundEnd pn).1 = false) ∧
    ((h.windowEnd.any fun w => decide (w ≤ pn)) = true → h.cssStart.isSome = true →
      n = (if h.rounds + 1 ≥ 5 then 0 else h.rounds + 1) ∧ (h.roundEnd pn).1 = decide (h.rounds + 1 ≥ 5)) := by
  obtain ⟨en, w, a, b, c, d, cs, r⟩ := h
  cases w with
  | none => exact ⟨r, rfl, fun _ => ⟨rfl, rfl⟩, fun h => by cases h⟩
  | some w =>
    by_cases hp : w ≤ pn
    · cases cs with
      | none => exact ⟨r, by simp [Hystart.roundEnd, hp], fun _ => ⟨rfl, by simp [Hystart.roundEnd, hp]⟩, fun _ h => by cases h⟩
      | some t =>
        refine ⟨if r + 1 ≥ 5 then 0 else r + 1, ?_, ?_, ?_⟩
        · by_cases hr : r + 1 ≥ 5 <;> simp [Hystart.roundEnd, hp, cssRounds, hr]
        · rintro (h | h)
          · simp [hp] at h
          · cases h
        · intro _ _
          by_cases hr : r + 1 ≥ 5 <;> simp [Hystart.roundEnd, hp, cssRounds, hr]
    · refine ⟨r, by simp [Hystart.roundEnd, hp], fun _ => ⟨rfl, by simp [Hystart.roundEnd, hp]⟩, fun h => ?_⟩
      simp [hp] at h

/-- What the phase does. -/
theorem phase_cases (h : Hystart) (now : Nat) :
    (h.cssStart = none ∧ h.slower = true ∧ h.phase now = { h with baseMin := h.curMin, cssStart := some now }) ∨
    (h.cssStart = none ∧ h.slower = false ∧ h.phase now = h) ∨
    (h.cssStart.isSome = true ∧ h.samples ≥ 8 ∧ h.faster = true ∧
      h.phase now = { h with samples := 0, baseMin := none, cssStart := none, rounds := 0 }) ∨
    (h.cssStart.isSome = true ∧ h.samples ≥ 8 ∧ h.faster = false ∧ h.phase now = { h with samples := 0 }) ∨
    (h.cssStart.isSome = true ∧ h.samples < 8 ∧ h.phase now = h) := by
  unfold Hystart.phase
  cases hc : h.cssStart with
  | none =>
    cases hs : h.slower with
    | true => exact Or.inl ⟨rfl, rfl, by simp⟩
    | false => exact Or.inr (Or.inl ⟨rfl, rfl, by simp⟩)
  | some t =>
    simp only [Option.isNone_some, Bool.false_eq_true, if_false, nRttSample]
    by_cases hn : h.samples ≥ 8
    · cases hf : h.faster with
      | true => exact Or.inr (Or.inr (Or.inl ⟨rfl, hn, rfl, by simp [hn]⟩))
      | false => exact Or.inr (Or.inr (Or.inr (Or.inl ⟨rfl, hn, rfl, by simp [hn]⟩)))
    · exact Or.inr (Or.inr (Or.inr (Or.inr ⟨rfl, by omega, by simp [hn]⟩)))

/-- An acknowledgement, in steps. -/
theorem ack_eq {h : Hystart} (he : h.enabled = true) (pn rtt now : Nat) :
    h.onAcked pn rtt now = ((h.sample rtt).phase now).roundEnd pn := by
  unfold Hystart.onAcked
  rw [he]
  simp

/-- What an acknowledgement leaves alone. -/
theorem ack_frame {h : Hystart} (he : h.enabled = true) (pn rtt now : Nat) :
    (h.onAcked pn rtt now).2.enabled = true ∧ (h.onAcked pn rtt now).2.lastMin = h.lastMin ∧
    (h.onAcked pn rtt now).2.curMin = (h.sample rtt).curMin ∧
    (h.onAcked pn rtt now).2.windowEnd = (if (h.windowEnd.any fun w => decide (w ≤ pn)) then none else h.windowEnd) ∧
    (h.onAcked pn rtt now).2.cssStart = ((h.sample rtt).phase now).cssStart ∧
    (h.onAcked pn rtt now).2.baseMin = ((h.sample rtt).phase now).baseMin ∧
    (h.onAcked pn rtt now).2.samples = ((h.sample rtt).phase now).samples := by
  rw [ack_eq he]
  obtain ⟨n, hr, _, _⟩ := roundEnd_eq ((h.sample rtt).phase now) pn
  rw [hr]
  have hp : ((h.sample rtt).phase now).enabled = true ∧ ((h.sample rtt).phase now).lastMin = h.lastMin ∧
      ((h.sample rtt).phase now).curMin = (h.sample rtt).curMin ∧ ((h.sample rtt).phase now).windowEnd = h.windowEnd := by
    rcases phase_cases (h.sample rtt) now with ⟨_, _, e⟩ | ⟨_, _, e⟩ | ⟨_, _, _, e⟩ | ⟨_, _, _, e⟩ | ⟨_, _, e⟩ <;> rw [e] <;>
      exact ⟨he, rfl, rfl, rfl⟩
  exact ⟨hp.1, hp.2.1, hp.2.2.1, by rw [← hp.2.2.2], rfl, rfl, rfl⟩

theorem Inv.both {h : Hystart} {l : Log} (i : Inv h l) (e : Ev) : Inv (both (h, l) e).1 (both (h, l) e).2 := by
  obtain ⟨i1, i2, i3, i4, i5, i6, i7⟩ := i
  cases e with
  | sent pn =>
    show Inv (h.startRound pn) (l.note (css h) (css (h.startRound pn)) (.sent pn))
    unfold Hystart.startRound Log.note
    rw [i2]
    cases ho : l.opened with
    | some w =>
      simp only [Option.isNone_some, Bool.false_eq_true, if_false]
      exact ⟨i1, by rw [i2], i3, i4, i5, i6, i7⟩
    | none =>
      simp only [Option.isNone_none, if_true]
      refine ⟨i1, rfl, i4, rfl, i5, Nat.le_refl _, ?_⟩
      intro hc
      have hc' : (!css h) = true := hc
      rw [css_eq i1] at hc'
      refine ⟨?_, rfl⟩
      show h.cssStart = none
      cases hs : h.cssStart with
      | none => rfl
      | some t => rw [hs] at hc'; cases hc'
  | loss => exact ⟨i1, rfl, i3, i4, (fun h => by cases h), i6, fun hc => ⟨rfl, (i7 hc).2⟩⟩
  | ack pn rtt now =>
    show Inv (h.onAcked pn rtt now).2 (l.note (css h) (css (h.onAcked pn rtt now).2) (.ack pn rtt now))
    obtain ⟨f1, f2, f3, f4, f5, f6, f7⟩ := ack_frame i1 pn rtt now
    rw [css_eq i1, css_eq f1]
    have hcur := least_sample i4 rtt
    generalize (h.onAcked pn rtt now).2 = r at *
    refine ⟨f1, ?_, by rw [f2]; exact i3, by rw [f3]; exact hcur, ?_, ?_, ?_⟩
    · rw [f4, i2]
      rfl
    all_goals
      rcases phase_cases (h.sample rtt) now with ⟨c, s, e⟩ | ⟨c, s, e⟩ | ⟨c, n8, f, e⟩ | ⟨c, n8, f, e⟩ | ⟨c, n8, e⟩ <;>
        rw [e] at f5 f6 f7 <;> (try have c' : h.cssStart = none := c) <;> (try have c' : h.cssStart.isSome = true := c)
    · intro _
      rw [f6]
      simp only [Log.note, c', f5, Option.isSome_none, Option.isSome_some, Bool.not_false, Bool.and_true, if_true]
      exact ⟨hcur, by simp⟩
    · intro hs
      rw [f5, c] at hs
      cases hs
    · intro hs
      rw [f5] at hs
      cases hs
    · intro _
      rw [f6]
      simp only [Log.note, c', Bool.not_true, Bool.false_and, Bool.false_eq_true, if_false]
      exact i5 c'
    · intro _
      rw [f6]
      simp only [Log.note, c', Bool.not_true, Bool.false_and, Bool.false_eq_true, if_false]
      exact i5 c'
    · rw [f7]; exact Nat.succ_le_succ i6
    · rw [f7]; exact Nat.succ_le_succ i6
    · rw [f7]; exact Nat.zero_le _
    · rw [f7]; exact Nat.zero_le _
    · rw [f7]; exact Nat.succ_le_succ i6
    · intro hc
      simp [Log.note, f5] at hc
    · intro hc
      simp only [Log.note, Bool.and_eq_true] at hc
      refine ⟨by rw [f5]; exact c, ?_⟩
      rw [f7]
      show h.samples + 1 = l.cur.length + 1
      rw [(i7 hc.1).2]
    · intro hc
      simp only [Log.note, Bool.and_eq_true] at hc
      rw [(i7 hc.1).1] at c'
      cases c'
    · intro hc
      simp only [Log.note, Bool.and_eq_true] at hc
      rw [(i7 hc.1).1] at c'
      cases c'
    · intro hc
      simp only [Log.note, Bool.and_eq_true] at hc
      rw [(i7 hc.1).1] at c'
      cases c'

theorem inv_run (evs : List Ev) : Inv (run evs).1 (run evs).2 := by
  have key : ∀ (evs : List Ev) (x : Hystart × Log), Inv x.1 x.2 → Inv (evs.foldl both x).1 (evs.foldl both x).2 := by
    intro evs
    induction evs with
    | nil => intro x h; exact h
    | cons e evs ih => intro x h; exact ih (C168.both x e) (Inv.both h e)
  exact key evs _ ⟨rfl, rfl, rfl, rfl, (fun h => by cases h), Nat.le_refl _, fun _ => ⟨rfl, rfl⟩⟩

/-! ### Entering -/

/-- The tolerance: an eighth of the delay, but at least 4 ms and at most 16 ms. -/
def tolerance (d : Nat) : Nat := if d / 8 < 4000000 then 4000000 else if 16000000 < d / 8 then 16000000 else d / 8

theorem thresh_eq (d : Nat) : rttThresh d = tolerance d := by
  unfold rttThresh tolerance
  simp only [minRttThresh, maxRttThresh]
  split
  · rw [show Nat.max (d / 8) 4000000 = 4000000 from Nat.max_eq_right (by omega)]
    rfl
  · rw [show Nat.max (d / 8) 4000000 = d / 8 from Nat.max_eq_left (by omega)]
    split
    · exact Nat.min_eq_right (by omega)
    · exact Nat.min_eq_left (by omega)

/-- Every measurement of this round is above the least of the one before by the tolerance. -/
def Risen (prev cur : List Nat) : Prop := ∃ m ∈ prev, (∀ x ∈ prev, m ≤ x) ∧ ∀ y ∈ cur, m + tolerance m ≤ y

theorem slower_iff {h : Hystart} {prev cur : List Nat} (h1 : Least prev h.lastMin) (h2 : Least cur h.curMin) (hc : cur ≠ []) :
    h.slower = true ↔ 8 ≤ h.samples ∧ Risen prev cur := by
  unfold Hystart.slower
  cases hcm : h.curMin with
  | none => rw [hcm] at h2; exact absurd h2 hc
  | some c =>
    rw [hcm] at h2
    cases hlm : h.lastMin with
    | none =>
      rw [hlm] at h1
      have : prev = [] := h1
      subst this
      simp [Risen]
    | some m =>
      rw [hlm] at h1
      simp only [Bool.and_eq_true, decide_eq_true_eq, nRttSample, thresh_eq, ge_iff_le]
      refine and_congr_right fun _ => ?_
      constructor
      · intro hle
        exact ⟨m, h1.1, h1.2, fun y hy => Nat.le_trans hle (h2.2 y hy)⟩
      · rintro ⟨m', hm', hmin, hall⟩
        have : m = m' := Nat.le_antisymm (h1.2 m' hm') (hmin m h1.1)
        rw [this]
        exact hall c h2.1

/-- Conservative slow start begins only with an acknowledgement that makes at least eight in the
round, all of them later than the fastest of the round before by the tolerance. -/
theorem enter (evs : List Ev) (e : Ev) (h1 : css (run evs).1 = false) (h2 : css (run (evs ++ [e])).1 = true) :
    ∃ pn rtt now, e = .ack pn rtt now ∧ 8 ≤ (run (evs ++ [e])).2.cur.length ∧ Risen (run evs).2.prev (run (evs ++ [e])).2.cur := by
  have i := inv_run evs
  have hrun : run (evs ++ [e]) = both (run evs) e := by simp [run]
  rw [hrun] at h2 ⊢
  generalize run evs = x at *
  obtain ⟨h, l⟩ := x
  have h1' : css h = false := h1
  cases e with
  | sent pn =>
    exfalso
    have : css (h.startRound pn) = css h := by
      unfold Hystart.startRound css Hystart.inCss
      split <;> rfl
    rw [show css (both (h, l) (.sent pn)).1 = css h from this, h1'] at h2
    cases h2
  | loss =>
    exfalso
    have : css h.event = false := by simp [css, Hystart.inCss, Hystart.event]
    rw [show css (both (h, l) .loss).1 = false from this] at h2
    cases h2
  | ack pn rtt now =>
    refine ⟨pn, rtt, now, rfl, ?_⟩
    show 8 ≤ (rtt :: l.cur).length ∧ Risen l.prev (rtt :: l.cur)
    have h2' : css (h.onAcked pn rtt now).2 = true := h2
    obtain ⟨f1, f2, f3, f4, f5, f6, f7⟩ := ack_frame i.enabled pn rtt now
    rw [css_eq f1, f5] at h2'
    rw [css_eq i.enabled] at h1'
    rcases phase_cases (h.sample rtt) now with ⟨c, s, e⟩ | ⟨c, s, e⟩ | ⟨c, n8, f, e⟩ | ⟨c, n8, f, e⟩ | ⟨c, n8, e⟩
    · have := (slower_iff (h := h.sample rtt) i.last (least_sample i.cur rtt) (by simp)).1 s
      refine ⟨?_, this.2⟩
      have hs : h.samples + 1 ≥ 8 := this.1
      have := i.count
      simp only [List.length_cons]
      simp only at this
      omega
    · rw [e, c] at h2'; cases h2'
    · rw [e] at h2'; cases h2'
    · rw [show h.cssStart.isSome = true from c] at h1'; cases h1'
    · rw [show h.cssStart.isSome = true from c] at h1'; cases h1'

/-- In a round without conservative slow start so far it begins whenever that is so. -/
theorem enters (evs : List Ev) (pn rtt now : Nat) (hc : (run evs).2.calm = true) (h8 : 7 ≤ (run evs).2.cur.length)
    (hr : Risen (run evs).2.prev (rtt :: (run evs).2.cur)) : css (run (evs ++ [.ack pn rtt now])).1 = true := by
  have i := inv_run evs
  have hrun : run (evs ++ [.ack pn rtt now]) = both (run evs) (.ack pn rtt now) := by simp [run]
  rw [hrun]
  generalize run evs = x at *
  obtain ⟨h, l⟩ := x
  show css (h.onAcked pn rtt now).2 = true
  obtain ⟨f1, f2, f3, f4, f5, f6, f7⟩ := ack_frame i.enabled pn rtt now
  rw [css_eq f1, f5]
  obtain ⟨c0, s0⟩ := i.calm hc
  have hs : (h.sample rtt).slower = true :=
    (slower_iff (h := h.sample rtt) i.last (least_sample i.cur rtt) (by simp)).2 ⟨by
      show 8 ≤ h.samples + 1
      have h8' : 7 ≤ l.cur.length := h8
      have s0' : h.samples = l.cur.length := s0
      omega, hr⟩
  rcases phase_cases (h.sample rtt) now with ⟨c, s, e⟩ | ⟨c, s, e⟩ | ⟨c, n8, f, e⟩ | ⟨c, n8, f, e⟩ | ⟨c, n8, e⟩
  · rw [e]; rfl
  · rw [hs] at s; cases s
  · rw [show (h.sample rtt).cssStart = none from c0] at c; cases c
  · rw [show (h.sample rtt).cssStart = none from c0] at c; cases c
  · rw [show (h.sample rtt).cssStart = none from c0] at c; cases c

theorem snoc_induction {α : Type} {P : List α → Prop} (h0 : P []) (h1 : ∀ l e, P l → P (l ++ [e])) (l : List α) : P l := by
  have : ∀ r : List α, P r.reverse := by
    intro r
    induction r with
    | nil => exact h0
    | cons e r ih => rw [List.reverse_cons]; exact h1 _ _ ih
  simpa using this l.reverse

/-- Delays that differ by less than 4 ms never lead to conservative slow start. -/
theorem steady (d : Nat) (evs : List Ev) (h : ∀ pn rtt now, .ack pn rtt now ∈ evs → d ≤ rtt ∧ rtt < d + 4000000) :
    css (run evs).1 = false := by
  have key : ∀ evs : List Ev, (∀ pn rtt now, .ack pn rtt now ∈ evs → d ≤ rtt ∧ rtt < d + 4000000) →
      (∀ x ∈ (run evs).2.prev, d ≤ x ∧ x < d + 4000000) ∧ (∀ x ∈ (run evs).2.cur, d ≤ x ∧ x < d + 4000000) := by
    intro evs
    induction evs using snoc_induction with
    | h0 => intro _; exact ⟨by simp [run], by simp [run]⟩
    | h1 evs e ih =>
      intro h
      obtain ⟨a, b⟩ := ih fun pn rtt now he => h pn rtt now (by simp [he])
      rw [show run (evs ++ [e]) = both (run evs) e by simp [run]]
      cases e with
      | sent pn =>
        simp only [both, Log.note]
        split
        · exact ⟨b, by simp⟩
        · exact ⟨a, b⟩
      | loss => exact ⟨a, b⟩
      | ack pn rtt now =>
        refine ⟨a, ?_⟩
        intro x hx
        have hx' : x ∈ rtt :: (run evs).2.cur := hx
        rcases List.mem_cons.1 hx' with rfl | hx'
        · exact h pn x now (by simp)
        · exact b x hx'
  induction evs using snoc_induction with
  | h0 => rfl
  | h1 evs e ih =>
    have h0 := ih fun pn rtt now he => h pn rtt now (by simp [he])
    cases hc : css (run (evs ++ [e])).1 with
    | false => rfl
    | true =>
      exfalso
      obtain ⟨pn, rtt, now, rfl, h8, m, hm, _, hr⟩ := enter evs e h0 hc
      have h1 := (key evs (fun pn rtt now he => h pn rtt now (by simp [he]))).1 m hm
      have h2 := (key _ h).2
      generalize hcur : (run (evs ++ [.ack pn rtt now])).2.cur = c at *
      cases c with
      | nil => simp at h8
      | cons y c =>
        have h3 := h2 y (by simp)
        have h4 := hr y (by simp)
        have : 4000000 ≤ tolerance m := by unfold tolerance; split <;> (try split) <;> omega
        omega

/-! ### Leaving -/

/-- Back to slow start only with an acknowledgement that is faster than all of the round in
which conservative slow start began. -/
theorem back (evs : List Ev) (pn rtt now : Nat) (h1 : css (run evs).1 = true)
    (h2 : css (run (evs ++ [.ack pn rtt now])).1 = false) :
    ∃ y ∈ (run (evs ++ [.ack pn rtt now])).2.cur, (∀ x ∈ (run evs).2.base, y < x) ∧ (run evs).2.base ≠ [] := by
  have i := inv_run evs
  have hrun : run (evs ++ [.ack pn rtt now]) = both (run evs) (.ack pn rtt now) := by simp [run]
  rw [hrun] at h2 ⊢
  generalize run evs = x at *
  obtain ⟨h, l⟩ := x
  show ∃ y ∈ rtt :: l.cur, (∀ x ∈ l.base, y < x) ∧ l.base ≠ []
  have h1' : css h = true := h1
  have h2' : css (h.onAcked pn rtt now).2 = false := h2
  obtain ⟨f1, f2, f3, f4, f5, f6, f7⟩ := ack_frame i.enabled pn rtt now
  rw [css_eq f1, f5] at h2'
  rw [css_eq i.enabled] at h1'
  obtain ⟨hb, hne⟩ := i.base h1'
  have hcur := least_sample i.cur rtt
  rcases phase_cases (h.sample rtt) now with ⟨c, s, e⟩ | ⟨c, s, e⟩ | ⟨c, n8, f, e⟩ | ⟨c, n8, f, e⟩ | ⟨c, n8, e⟩
  · rw [show h.cssStart = none from c] at h1'; cases h1'
  · rw [show h.cssStart = none from c] at h1'; cases h1'
  · unfold Hystart.faster at f
    cases hcm : (h.sample rtt).curMin with
    | none => rw [hcm] at hcur; cases hcur
    | some m =>
      rw [hcm] at f hcur
      cases hbm : h.baseMin with
      | none => rw [hbm] at hb; exact absurd hb hne
      | some b =>
        rw [show (h.sample rtt).baseMin = some b from hbm] at f
        rw [hbm] at hb
        have hlt : m < b := by simpa using f
        exact ⟨m, hcur.1, fun x hx => Nat.lt_of_lt_of_le hlt (hb.2 x hx), hne⟩
  · rw [e, show ({ h.sample rtt with samples := 0 } : Hystart).cssStart.isSome = true from c] at h2'; cases h2'
  · rw [e, show (h.sample rtt).cssStart.isSome = true from c] at h2'; cases h2'

/-- Without losses, the rounds counted are those that ended in conservative slow start. -/
theorem rounds_eq (evs : List Ev) (hl : .loss ∉ evs) :
    (run evs).1.rounds = if css (run evs).1 then (run evs).2.ends % 5 else 0 := by
  induction evs using snoc_induction with
  | h0 => rfl
  | h1 evs e ih =>
    have ih := ih (fun h => hl (by simp [h]))
    have i := inv_run evs
    rw [show run (evs ++ [e]) = both (run evs) e by simp [run]]
    generalize run evs = x at *
    obtain ⟨h, l⟩ := x
    simp only at ih
    cases e with
    | sent pn =>
      have h1 : (h.startRound pn).rounds = h.rounds ∧ css (h.startRound pn) = css h := by
        unfold Hystart.startRound css Hystart.inCss
        split <;> exact ⟨rfl, rfl⟩
      have h2 : ∀ a b, (l.note a b (.sent pn)).ends = l.ends := by
        intro a b
        simp only [Log.note]
        split <;> rfl
      show (h.startRound pn).rounds = if css (h.startRound pn) then (l.note (css h) (css (h.startRound pn)) (.sent pn)).ends % 5 else 0
      rw [h1.1, h1.2, h2, ih]
    | loss => exact absurd (by simp) hl
    | ack pn rtt now =>
      have i1 : h.enabled = true := i.enabled
      have i2 : h.windowEnd = l.opened := i.opened
      obtain ⟨f1, _, _, _, f5, _, _⟩ := ack_frame i1 pn rtt now
      show (h.onAcked pn rtt now).2.rounds = if css (h.onAcked pn rtt now).2 then
        (l.note (css h) (css (h.onAcked pn rtt now).2) (.ack pn rtt now)).ends % 5 else 0
      rw [css_eq f1, f5, css_eq i1]
      rw [css_eq i1] at ih
      obtain ⟨n, hr, hn1, hn2⟩ := roundEnd_eq ((h.sample rtt).phase now) pn
      have hrounds : (h.onAcked pn rtt now).2.rounds = n := by rw [ack_eq i1, hr]
      rw [hrounds]
      have hw : ((h.sample rtt).phase now).windowEnd = l.opened := by
        rcases phase_cases (h.sample rtt) now with ⟨_, _, e⟩ | ⟨_, _, e⟩ | ⟨_, _, _, e⟩ | ⟨_, _, _, e⟩ | ⟨_, _, e⟩ <;> rw [e] <;> exact i2
      rw [hw] at hn1 hn2
      obtain ⟨fin, hfin⟩ : ∃ fin, (l.opened.any fun w => decide (w ≤ pn)) = fin := ⟨_, rfl⟩
      rw [hfin] at hn1 hn2
      simp only [Log.note, Log.final, hfin]
      clear hfin
      have hmod : ∀ k : Nat, (if k % 5 + 1 ≥ 5 then 0 else k % 5 + 1) = (k + 1) % 5 := by intro k; split <;> omega
      rcases phase_cases (h.sample rtt) now with ⟨c, s, e⟩ | ⟨c, s, e⟩ | ⟨c, n8, f, e⟩ | ⟨c, n8, f, e⟩ | ⟨c, n8, e⟩ <;> rw [e] at hn1 hn2 ⊢
      · have c' : h.cssStart = none := c
        rw [c'] at ih ⊢
        have hr0 : (h.sample rtt).rounds = 0 := ih
        cases fin with
        | false => rw [(hn1 (Or.inl rfl)).1, hr0]; rfl
        | true => rw [(hn2 rfl rfl).1, hr0]; rfl
      · have c' : h.cssStart = none := c
        rw [c'] at ih
        rw [(hn1 (Or.inr c)).1, c]
        exact ih
      · rw [(hn1 (Or.inr rfl)).1]; rfl
      · have c' : h.cssStart.isSome = true := c
        rw [c'] at ih
        have hr0 : (h.sample rtt).rounds = l.ends % 5 := ih
        simp only [c', show (h.sample rtt).cssStart.isSome = true from c, Bool.not_true, Bool.false_and, Bool.true_and, if_true,
          Bool.false_eq_true, if_false]
        cases fin with
        | false => rw [(hn1 (Or.inl rfl)).1, hr0]; simp
        | true => rw [(hn2 rfl c).1, hr0]; simpa using hmod l.ends
      · have c' : h.cssStart.isSome = true := c
        rw [c'] at ih
        have hr0 : (h.sample rtt).rounds = l.ends % 5 := ih
        simp only [c', show (h.sample rtt).cssStart.isSome = true from c, Bool.not_true, Bool.false_and, Bool.true_and, if_true,
          Bool.false_eq_true, if_false]
        cases fin with
        | false => rw [(hn1 (Or.inl rfl)).1, hr0]; simp
        | true => rw [(hn2 rfl c).1, hr0]; simpa using hmod l.ends

/-- Slow start is over when a round in conservative slow start ends and the count of those
before reached `n`. -/
theorem exit_iff (h : Hystart) (he : h.enabled = true) (pn rtt now : Nat) :
    (h.onAcked pn rtt now).1 = true ↔ css (h.onAcked pn rtt now).2 = true ∧ (h.windowEnd.any fun w => decide (w ≤ pn)) = true ∧
      4 ≤ h.rounds := by
  obtain ⟨f1, _, _, _, f5, _, _⟩ := ack_frame he pn rtt now
  rw [css_eq f1, f5, ack_eq he]
  obtain ⟨n, hr, hn1, hn2⟩ := roundEnd_eq ((h.sample rtt).phase now) pn
  have hw : ((h.sample rtt).phase now).windowEnd = h.windowEnd ∧ (((h.sample rtt).phase now).cssStart.isSome = true →
      ((h.sample rtt).phase now).rounds = h.rounds) := by
    rcases phase_cases (h.sample rtt) now with ⟨_, _, e⟩ | ⟨_, _, e⟩ | ⟨_, _, _, e⟩ | ⟨_, _, _, e⟩ | ⟨_, _, e⟩ <;> rw [e] <;>
      first | exact ⟨rfl, fun _ => rfl⟩ | exact ⟨rfl, fun h => by cases h⟩
  rw [hw.1] at hn1 hn2
  cases hf : (h.windowEnd.any fun w => decide (w ≤ pn)) with
  | false => rw [(hn1 (Or.inl hf)).2]; simp
  | true =>
    cases hc : ((h.sample rtt).phase now).cssStart with
    | none => rw [(hn1 (Or.inr hc)).2]; simp
    | some t =>
      have hs : ((h.sample rtt).phase now).cssStart.isSome = true := by rw [hc]; rfl
      rw [(hn2 hf hs).2, hw.2 hs]
      simp

/-- Without losses, slow start is over exactly when the fifth round ends in conservative slow
start since it began (or the tenth, and so on, should slow start go on). Missing: histories
with losses. -/
theorem exit_partial (evs : List Ev) (pn rtt now : Nat) (hl : .loss ∉ evs) :
    ((run evs).1.onAcked pn rtt now).1 = true ↔
      css (run (evs ++ [.ack pn rtt now])).1 = true ∧ (run evs).2.final pn = true ∧ (run (evs ++ [.ack pn rtt now])).2.ends % 5 = 0 := by
  have i := inv_run evs
  have hr := rounds_eq evs hl
  have hr' := rounds_eq (evs ++ [.ack pn rtt now]) (by simpa using hl)
  rw [exit_iff _ i.enabled, i.opened]
  rw [show run (evs ++ [.ack pn rtt now]) = both (run evs) (.ack pn rtt now) by simp [run]] at hr' ⊢
  generalize run evs = x at *
  obtain ⟨h, l⟩ := x
  show css (h.onAcked pn rtt now).2 = true ∧ l.final pn = true ∧ 4 ≤ h.rounds ↔
    css (h.onAcked pn rtt now).2 = true ∧ l.final pn = true ∧ (l.note (css h) (css (h.onAcked pn rtt now).2) (.ack pn rtt now)).ends % 5 = 0
  refine and_congr_right fun hc => and_congr_right fun hf => ?_
  have hr : h.rounds = if css h then l.ends % 5 else 0 := hr
  simp only [Log.note, hc, hf, Bool.and_true, if_true]
  cases hb : css h with
  | false => rw [hb] at hr; simp at hr; simp [hr]
  | true =>
    rw [hb] at hr
    simp at hr
    simp [hr]
    omega

/-! ### What is not so -/

/-- A frame that acknowledges packets, with one measurement. -/
def frame (pns : List Nat) (rtt now : Nat) : List Ev := pns.map fun pn => .ack pn rtt now

/-- Two measurements are enough, if the second acknowledges eight packets: the number of samples
that is to keep single outliers out counts packets. -/
theorem outlier : css (run ([.sent 0] ++ frame [0] 10000000 1 ++ [.sent 1] ++ frame (List.range' 1 8) 14000000 2)).1 = true := by
  decide +kernel

/-- So it is with the whole of recovery: two ACK frames, each for a window of packets. -/
example : ((Sys.new C122.flat 1200 10 true true 0 333000000 25000000).run (C122.with_ .reno)
    ((List.range 10).map (fun i => C122.tx i 1200 0) ++ [C122.ack [(0, 10)] 10] ++
      (List.range 20).map (fun i => C122.tx (10 + i) 1200 20) ++ [C122.ack [(0, 30)] 40])).core.cc.hy.inCss = true := by decide +kernel

/-- A round with delay `d` from packet `n` on. -/
def round (n d : Nat) : List Ev := .sent (n + 7) :: (List.range 8).flatMap fun k => frame [n + k] d 0

/-- Conservative slow start for four rounds, then a loss. -/
def before : List Ev := round 0 10000000 ++ round 8 20000000 ++ round 16 20000000 ++ round 24 20000000 ++ round 32 20000000 ++ [.loss]

/-- In the next slow start, delays rise again. -/
def again : List Ev := round 40 10000000 ++ (round 48 20000000).dropLast

/-- With losses the claim is false: the rounds counted before the loss are not forgotten, and
conservative slow start is over with the end of the round in which it began. -/
theorem exit_false : ¬ ∀ (evs : List Ev) (pn rtt now : Nat), ((run evs).1.onAcked pn rtt now).1 = true →
    5 ≤ (run (evs ++ [.ack pn rtt now])).2.ends := by
  intro h
  have := h (before ++ again) 55 20000000 0 (by decide +kernel)
  revert this
  decide +kernel

/-- Without the loss it takes five rounds. -/
example : ((run (round 0 10000000 ++ (round 8 20000000).dropLast)).1.onAcked 15 20000000 0).1 = false ∧
    css (run (round 0 10000000 ++ round 8 20000000)).1 = true ∧
    ((run (before.dropLast ++ (round 40 20000000).dropLast)).1.onAcked 47 20000000 0).1 = true ∧
    ((run (before.dropLast ++ (round 40 10000000).dropLast)).1.onAcked 47 10000000 0).1 = false ∧
    css (run (before.dropLast ++ round 40 10000000)).1 = false ∧
    (run (before ++ again ++ [.ack 55 20000000 0])).2.ends = 1 := by decide +kernel

end Verif.Props.C168
