import Verif.Bbr.MildInv
import Verif.Props.C145

/-!
C146. BBR's short-term lower bounds on bandwidth and on the bytes in flight: none while probing
for more, lowered only at the end of a round with losses, never below what the round delivered.
With the default treatment of losses.
-/

namespace Verif.Props.C146

open Verif.Bbr Verif.Props.C142 Verif.Props.C141 Verif.Props.C145

/-! ### Specification -/

/-- Startup, PROBE_REFILL and PROBE_UP look for more bandwidth. -/
def Seeks (b : Bbr) : Prop := kind b = .startup ∨ phase b = some .refill ∨ phase b = some .up

/-- PROBE_REFILL or PROBE_UP, or PROBE_REFILL to come after ProbeRTT. -/
def Refills (b : Bbr) : Prop := match b.mode with | .probeBw y => y.phase = .refill ∨ y.phase = .up | .probeRtt y _ => y.phase = .refill | _ => False

/-- An event ends a round. -/
def Ends (F : Floats) (p : Params) (b : Bbr) (now f : Nat) (acked : List Acked) (lost : List Lost) : Prop := (seen F p b now f acked lost).1.endRound = true

/-- The bytes an event declares lost. -/
def losses (b : Bbr) (now : Nat) (acked : List Acked) (lost : List Lost) : Nat := (b.net.reported now acked lost).2.lost - b.net.sampler.lost

/-- Whatever happens ends no round. -/
def NoEnd (F : Floats) (p : Params) (b : Bbr) : List BOp → Prop
  | [] => True
  | op :: ops => (match op with | .event now f acked lost _ => ¬Ends F p b now f acked lost | _ => True) ∧ NoEnd F p (b.step F p op) ops

/-- Nothing is lost. -/
def NoLoss (F : Floats) (p : Params) (b : Bbr) : List BOp → Prop
  | [] => True
  | op :: ops => (match op with | .event now _ acked lost _ => losses b now acked lost = 0 | _ => True) ∧ NoLoss F p (b.step F p op) ops

/-! ### Steps -/

/-- An event, to the lower bounds. -/
structure Short (F : Floats) (p : Params) (b : Bbr) (now f : Nat) (acked : List Acked) (lost : List Lost) (b' : Bbr) : Prop where
  ok : LoOk b'.mode b'.net
  start : StartLo F p b.net (.new now b.cwnd f b.mode.probing) (rep b now acked lost) (seen F p b now f acked lost).1 (seen F p b now f acked lost).2
  move : (Unset b'.net ∧ Climbing b'.mode) ∨ KeepLo (seen F p b now f acked lost).2 b'.net
  cruise : ∀ y z, b.mode = .probeBw y → b'.mode = .probeBw z → y.phase = .down → z.phase = .cruise → CapLo (seen F p b now f acked lost).2 b'.net
  still : Mild (seen F p b now f acked lost).2 b'.net
  ended : Ends F p b now f acked lost → b'.net.bytesLost = 0

theorem seen_ok {F : Floats} {p : Params} (hp : p.loMode = .default) {b : Bbr} (ho : LoOk b.mode b.net) (now f : Nat) (acked : List Acked) (lost : List Lost) :
    LoOk b.mode (seen F p b now f acked lost).2 := by
  have s := start_lo F p hp b.net (.new now b.cwnd f b.mode.probing) acked lost
  have same : b.mode.probing = true → Unset b.net → Unset (seen F p b now f acked lost).2 := by
    intro h u
    have h1 := s.bw
    have h2 := s.lo
    have hn : ¬((b.net.start F p (.new now b.cwnd f b.mode.probing) acked lost).1.endRound = true ∧ (CEvent.new now b.cwnd f b.mode.probing).probing = false ∧
        0 < (b.net.start F p (.new now b.cwnd f b.mode.probing) acked lost).2.bytesLost) := by
      intro k
      have k2 : b.mode.probing = false := k.2.1
      rw [h] at k2; cases k2
    rw [if_neg hn] at h1 h2
    exact ⟨h1.trans u.1, h2.trans u.2⟩
  generalize (seen F p b now f acked lost).2 = n at same
  cases hm : b.mode with
  | startup => rw [hm] at ho same; exact same rfl ho
  | drain y => trivial
  | probeRtt y e => trivial
  | probeBw y =>
    rw [hm] at ho same
    intro hy
    refine same ?_ (ho hy)
    show (decide (y.phase = .refill) || decide (y.phase = .up)) = true
    rcases hy with h | h <;> rw [h] <;> rfl

theorem event_short {F : Floats} {p : Params} (hp : p.loMode = .default) {T : Nat} {b : Bbr} (h : CInv T b) (ho : LoOk b.mode b.net) (now f : Nat) (acked : List Acked)
    (lost : List Lost) (least : Nat) : Short F p b now f acked lost (b.step F p (.event now f acked lost least)) := by
  show Short F p b now f acked lost (b.onEvent F p now f acked lost least).2
  obtain ⟨a1, -, a3⟩ := event_after F p b now f acked lost least
  have hk : SameLo (b.moded F p now f acked lost).2.net (b.onEvent F p now f acked lost least).2.net ∧
      (b.onEvent F p now f acked lost least).2.net.inflightHi = (b.moded F p now f acked lost).2.net.inflightHi ∧
      Mild (b.moded F p now f acked lost).2.net (b.onEvent F p now f acked lost least).2.net ∧
      (Ends F p b now f acked lost → (b.onEvent F p now f acked lost least).2.net.bytesLost = 0) := by
    rw [a3]
    unfold Net.finish
    dsimp only
    split
    · exact ⟨⟨rfl, rfl⟩, rfl, ⟨rfl, rfl, Nat.zero_le _⟩, fun _ => rfl⟩
    · next h => exact ⟨⟨rfl, rfl⟩, rfl, ⟨rfl, rfl, Nat.le_refl _⟩, fun k => absurd k h⟩
  have hok := seen_ok (F := F) hp ho now f acked lost
  have l := loop_lo F p hp (seen F p b now f acked lost).1 maxChanges { b with net := (seen F p b now f acked lost).2 } T h.sound hok
  have lm := loop_mild F p (seen F p b now f acked lost).1 maxChanges { b with net := (seen F p b now f acked lost).2 }
  have lb := loop_bw_lo F p hp (seen F p b now f acked lost).1 maxChanges { b with net := (seen F p b now f acked lost).2 }
  have hmod : ({ b with net := (seen F p b now f acked lost).2 } : Bbr).loop F p (seen F p b now f acked lost).1 maxChanges = b.moded F p now f acked lost := rfl
  rw [hmod] at l lm lb
  generalize (b.onEvent F p now f acked lost least).2 = b' at a1 hk
  generalize (b.moded F p now f acked lost).2 = d at a1 hk l lm lb
  obtain ⟨k1, k2, k3, k4⟩ := hk
  refine ⟨?_, start_lo F p hp b.net (.new now b.cwnd f b.mode.probing) acked lost, ?_, ?_, lm.trans k3, k4⟩
  · rw [a1]
    have := l.ok
    generalize d.mode = m at this
    cases m with
    | startup => exact k1.keep.unset this
    | drain y => trivial
    | probeRtt y e => trivial
    | probeBw y => exact fun hy => k1.keep.unset (this hy)
  · rw [a1]
    exact l.move.imp (fun q => ⟨k1.keep.unset q.1, q.2⟩) (fun q => q.trans k1.keep)
  · intro y z hy hz hd hc
    rw [a1] at hz
    have := (lb y hy (by rw [hy]; rw [hy] at hok; exact hok)).2.2 hd (by decide) z hz hc
    exact ⟨k1.1.trans this.1, by rw [k1.2, k2]; exact this.2⟩

/-- A step that is not an event. -/
theorem other_short {F : Floats} {p : Params} (hp : p.loMode = .default) {T : Nat} {b : Bbr} (h : CInv T b) (ho : LoOk b.mode b.net) (op : BOp)
    (hop : ∀ now f a l least, op ≠ .event now f a l least) :
    LoOk (b.step F p op).mode (b.step F p op).net ∧ ((Unset (b.step F p op).net ∧ Climbing (b.step F p op).mode) ∨ KeepLo b.net (b.step F p op).net) ∧
    Mild b.net (b.step F p op).net := by
  have here : ∀ m : Net, SameLo b.net m → Mild b.net m → LoOk b.mode m ∧ ((Unset m ∧ Climbing b.mode) ∨ KeepLo b.net m) ∧ Mild b.net m := by
    intro m hs hm
    refine ⟨?_, Or.inr hs.keep, hm⟩
    generalize b.mode = x at ho
    cases x with
    | startup => exact hs.keep.unset ho
    | drain y => trivial
    | probeRtt y e => trivial
    | probeBw y => exact fun hy => hs.keep.unset (ho hy)
  cases op with
  | event now f a l least => exact absurd rfl (hop now f a l least)
  | sent now f pn bytes el =>
    have q := quiet_lo p hp b now f T h.sound ho
    have m := quiet_mild p b now f
    show LoOk (if f = 0 then b.exitQuiet p now else b).mode (Net.onSent (if f = 0 then b.exitQuiet p now else b).net now f pn bytes el) ∧
      ((Unset (Net.onSent (if f = 0 then b.exitQuiet p now else b).net now f pn bytes el) ∧ Climbing (if f = 0 then b.exitQuiet p now else b).mode) ∨
        KeepLo b.net (Net.onSent (if f = 0 then b.exitQuiet p now else b).net now f pn bytes el)) ∧
      Mild b.net (Net.onSent (if f = 0 then b.exitQuiet p now else b).net now f pn bytes el)
    generalize (if f = 0 then b.exitQuiet p now else b) = d at q m
    have hs : SameLo d.net (d.net.onSent now f pn bytes el) := ⟨rfl, rfl⟩
    refine ⟨?_, q.move.imp (fun a => ⟨hs.keep.unset a.1, a.2⟩) (fun a => a.trans hs.keep), m.trans ⟨rfl, rfl, Nat.le_refl _⟩⟩
    have := q.ok
    generalize d.mode = x at this
    cases x with
    | startup => exact hs.keep.unset this
    | drain y => trivial
    | probeRtt y e => trivial
    | probeBw y => exact fun hy => hs.keep.unset (this hy)
  | appLimited f =>
    show LoOk (b.onAppLimited f).mode (b.onAppLimited f).net ∧ ((Unset (b.onAppLimited f).net ∧ Climbing (b.onAppLimited f).mode) ∨ KeepLo b.net (b.onAppLimited f).net) ∧
      Mild b.net (b.onAppLimited f).net
    unfold Bbr.onAppLimited
    split
    · exact here b.net ⟨rfl, rfl⟩ (.refl _)
    · exact here _ ⟨rfl, rfl⟩ ⟨rfl, rfl, Nat.le_refl _⟩
  | neutered pn => exact here _ ⟨rfl, rfl⟩ ⟨rfl, rfl, Nat.le_refl _⟩
  | mss m f => exact here _ ⟨rfl, rfl⟩ ⟨rfl, rfl, Nat.le_refl _⟩
  | limit m => exact here _ ⟨rfl, rfl⟩ ⟨rfl, rfl, Nat.le_refl _⟩

/-- The invariant after a run. -/
theorem run_ok {F : Floats} {p : Params} (hp : p.loMode = .default) (ops : List BOp) (T : Nat) (b : Bbr) (rest : List BOp) (ho : InOrder T (ops ++ rest)) (hc : CInv T b)
    (hl : LoOk b.mode b.net) : LoOk (b.run F p ops).mode (b.run F p ops).net ∧ ∃ U, CInv U (b.run F p ops) ∧ InOrder U rest :=
  run_keep (F := F) (p := p) (P := fun b => LoOk b.mode b.net) (G := fun _ _ => True) (R := fun _ _ => True)
    (fun _ _ now f a l least hc _ hl _ => (event_short hp hc hl now f a l least).ok)
    (fun _ _ op hop hc hl => (other_short hp hc hl op hop).1) (fun _ _ _ _ => ⟨trivial, trivial⟩) ops T b rest ho hc hl trivial

theorem new_ok (F : Floats) (p : Params) (i m s r t f : Nat) : LoOk (Bbr.new F p i m s r t f).mode (Bbr.new F p i m s r t f).net := ⟨rfl, rfl⟩

theorem Ran.ok {F : Floats} {p : Params} (hp : p.loMode = .default) {T : Nat} {b : Bbr} (h : Ran F p T b) : LoOk b.mode b.net := by
  obtain ⟨i, m, s, r, t, f, ops, h1, h2⟩ := h
  rw [h2]
  exact (run_ok hp ops 0 _ _ h1 (new_inv F p i m s r t f 0) (new_ok F p i m s r t f)).1

theorem refills_iff (b : Bbr) : Refills b ↔ Climbing b.mode := by
  unfold Refills
  generalize b.mode = m
  cases m <;> exact Iff.rfl

theorem probing_iff (b : Bbr) : b.mode.probing = true ↔ Seeks b := by
  unfold Seeks kind phase
  generalize b.mode = m
  cases m with
  | startup => exact ⟨fun _ => Or.inl rfl, fun _ => rfl⟩
  | drain y => exact ⟨fun h => (by cases h), fun h => by rcases h with h | h | h <;> cases h⟩
  | probeRtt y e => exact ⟨fun h => (by cases h), fun h => by rcases h with h | h | h <;> cases h⟩
  | probeBw y =>
    cases hq : y.phase <;> simp [Mode.probing, hq]

/-! ### Theorems -/

/-- **C146**, probing: while it looks for more bandwidth the estimate is the maximum measured, and no lower bound limits the bytes in flight. -/
theorem seeking {F : Floats} {p : Params} (hp : p.loMode = .default) {T : Nat} {b : Bbr} (h : Ran F p T b) (hs : Seeks b) : b.net.estimate = best b ∧ b.net.inflightLo = u64Max := by
  have ho := Ran.ok hp h
  have hu : Unset b.net := by
    rcases hs with hs | hs | hs
    · have hm : b.mode = .startup := by
        unfold kind at hs
        generalize b.mode = m at hs
        cases m <;> first | rfl | cases hs
      rw [hm] at ho; exact ho
    · obtain ⟨y, h1, h2⟩ := phase_mode hs
      rw [h1] at ho; exact ho (Or.inl h2)
    · obtain ⟨y, h1, h2⟩ := phase_mode hs
      rw [h1] at ho; exact ho (Or.inr h2)
  refine ⟨?_, hu.2⟩
  unfold Net.estimate
  rw [hu.1]
  rfl

/-- **C146**, the estimate: the maximum measured, or the bound below it. -/
theorem estimate_le (b : Bbr) : b.net.estimate ≤ best b ∧ (∀ v, b.net.bwLo = some v → b.net.estimate ≤ v) ∧ (b.net.estimate = best b ∨ b.net.bwLo = some b.net.estimate) := by
  unfold Net.estimate best
  cases b.net.bwLo with
  | none => exact ⟨Nat.le_refl _, fun v h => (by cases h), Or.inl rfl⟩
  | some a =>
    have hm : b.net.maxBw = max b.net.maxBw0 b.net.maxBw1 := rfl
    rw [← hm]
    refine ⟨Nat.min_le_right _ _, fun v h => by cases h; exact Nat.min_le_left _ _, ?_⟩
    dsimp only
    by_cases ha : a ≤ b.net.maxBw
    · right; rw [Nat.min_eq_left ha]
    · left; exact Nat.min_eq_right (Nat.le_of_not_le ha)

/-- **C146**, moved: an event leaves the bound on bandwidth, gives it up with PROBE_REFILL, or ends a round with losses while not probing, and lowers it
to `1 - beta` of what it was but not below what was delivered. The bound on the bytes in flight moves alike, but may be lowered further. -/
theorem moved {F : Floats} {p : Params} (hp : p.loMode = .default) {T : Nat} {b : Bbr} (h : Ran F p T b) (now inFlight : Nat) (acked : List Acked) (lost : List Lost) (least : Nat) :
    let s := seen F p b now inFlight acked lost
    let b' := b.step F p (.event now inFlight acked lost least)
    (b'.net.bwLo = none ∧ b'.net.inflightLo = u64Max ∧ Refills b') ∨
    (b'.net.bwLo = b.net.bwLo ∧ b'.net.inflightLo ≤ b.net.inflightLo ∧ (b.net.inflightLo = u64Max → b'.net.inflightLo = u64Max)) ∨
    (Ends F p b now inFlight acked lost ∧ ¬Seeks b ∧ 0 < b.net.bytesLost + losses b now acked lost ∧
      b'.net.bwLo = some (max (max b.net.bwLatest ((rep b now acked lost).maxBw.getD 0)) (F.mulBw (b.net.bwLo.getD (max s.2.maxBw0 s.2.maxBw1)) (F.comp p.beta))) ∧
      b'.net.inflightLo ≤ max (max b.net.inflightLatest (rep b now acked lost).maxInflight)
        (F.part (if b.net.inflightLo = u64Max then b.cwnd else b.net.inflightLo) (F.comp p.beta))) := by
  intro s b'
  have e := event_short hp h.inv (Ran.ok hp h) (F := F) now inFlight acked lost least
  have hl : s.1.lost = losses b now acked lost := (start_keep F p b.net (.new now b.cwnd inFlight b.mode.probing) acked lost).bytesLost
  rcases e.move with ⟨h1, h2⟩ | hk
  · exact Or.inl ⟨h1.1, h1.2, (refills_iff _).2 h2⟩
  · right
    obtain ⟨k1, k2, k3⟩ := hk
    have s1 := e.start.bw
    have s2 := e.start.lo
    have s3 := e.start.lost
    by_cases hc : (seen F p b now inFlight acked lost).1.endRound = true ∧ (CEvent.new now b.cwnd inFlight b.mode.probing).probing = false ∧
        0 < (seen F p b now inFlight acked lost).2.bytesLost
    · right
      rw [if_pos hc] at s1 s2
      refine ⟨hc.1, fun hs => ?_, ?_, k1.trans s1, Nat.le_trans k2 (Nat.le_of_eq s2)⟩
      · have k : b.mode.probing = false := hc.2.1
        rw [(probing_iff b).2 hs] at k; cases k
      · have h0 := hc.2.2
        rw [← hl, ← s3]
        exact h0
    · left
      rw [if_neg hc] at s1 s2
      rw [s2] at k2 k3
      exact ⟨k1.trans s1, k2, k3⟩

/-- **C146**, delivered: at the end of a round with losses the bound on bandwidth is not set below any bandwidth reported since an event `e` before that ended no round after. -/
theorem delivered {F : Floats} {p : Params} (hp : p.loMode = .default) (initial max mss rtt t0 factor : Nat) (pre mid : List BOp) (t f : Nat) (a : List Acked) (l : List Lost)
    (least : Nat) (now inFlight : Nat) (acked : List Acked) (lost : List Lost) (least' : Nat) (r : Nat)
    (hord : InOrder 0 (pre ++ .event t f a l least :: (mid ++ [.event now inFlight acked lost least']))) :
    let b0 := (Bbr.new F p initial max mss rtt t0 factor).run F p pre
    let b1 := b0.step F p (.event t f a l least)
    let b := b1.run F p mid
    let b' := b.step F p (.event now inFlight acked lost least')
    (rep b0 t a l).maxBw = some r → NoEnd F p b1 mid → b'.net.bwLo = none ∨ b'.net.bwLo = b.net.bwLo ∨ ∃ v, b'.net.bwLo = some v ∧ r ≤ v := by
  intro b0 b1 b b' hr hm
  obtain ⟨hl0, T, hc0, ho⟩ := run_ok (F := F) hp pre 0 _ _ hord (new_inv F p initial max mss rtt t0 factor 0) (new_ok F p initial max mss rtt t0 factor)
  have ho' : T ≤ t ∧ InOrder t (mid ++ [.event now inFlight acked lost least']) := ho
  have e0 := event_short (F := F) hp hc0 hl0 t f a l least
  have hc1 := (event_inv F p hc0 t f a l least ho'.1).inv
  have h1 : r ≤ b1.net.bwLatest := by
    have := e0.start.latest
    rw [← e0.still.bw] at this
    show r ≤ (b0.step F p (.event t f a l least)).net.bwLatest
    rw [this]
    have hr' : (rep ((Bbr.new F p initial max mss rtt t0 factor).run F p pre) t a l).maxBw = some r := hr
    rw [hr']
    split
    · exact Nat.le_refl _
    · exact Nat.le_max_right _ _
  have hrun := run_keep (F := F) (p := p) (P := fun b => LoOk b.mode b.net ∧ r ≤ b.net.bwLatest)
    (G := fun b op => match op with | .event now f acked lost _ => ¬Ends F p b now f acked lost | _ => True) (R := NoEnd F p)
    (fun T b now f a l least hc ht hp' hg => by
      have e := event_short (F := F) hp hc hp'.1 now f a l least
      refine ⟨e.ok, ?_⟩
      have hg' : ¬((seen F p b now f a l).1.endRound = true) := hg
      rw [e.still.bw, e.start.latest, if_neg hg']
      exact Nat.le_trans hp'.2 (Nat.le_max_left _ _))
    (fun T b op hop hc hp' => by
      obtain ⟨q1, -, q2⟩ := other_short (F := F) hp hc hp'.1 op hop
      exact ⟨q1, by rw [q2.bw]; exact hp'.2⟩)
    (fun b op ops h => h) mid t b1 [.event now inFlight acked lost least'] ho'.2 hc1 ⟨e0.ok, h1⟩ hm
  obtain ⟨⟨hl, hb⟩, U, hc, ho2⟩ := hrun
  have e := event_short (F := F) hp hc hl now inFlight acked lost least'
  rcases e.move with ⟨k, -⟩ | k
  · exact Or.inl k.1
  · right
    have s := e.start.bw
    rw [← k.1] at s
    split at s
    · right
      refine ⟨_, s, ?_⟩
      exact Nat.le_trans hb (Nat.le_trans (Nat.le_max_left _ _) (Nat.le_max_left _ _))
    · exact Or.inl s

/-- **C146**, without losses: since the end of a round nothing was lost; the bounds are left as they are, given up or made smaller by the upper bound. -/
theorem lossless {F : Floats} {p : Params} (hp : p.loMode = .default) (initial max mss rtt t0 factor : Nat) (pre mid : List BOp) (t f : Nat) (a : List Acked) (l : List Lost)
    (least : Nat) (op : BOp) (hord : InOrder 0 (pre ++ .event t f a l least :: (mid ++ [op]))) :
    let b0 := (Bbr.new F p initial max mss rtt t0 factor).run F p pre
    let b1 := b0.step F p (.event t f a l least)
    let b := b1.run F p mid
    let b' := b.step F p op
    Ends F p b0 t f a l → NoLoss F p b1 (mid ++ [op]) →
    (b'.net.bwLo = none ∨ b'.net.bwLo = b.net.bwLo) ∧ (b'.net.inflightLo = u64Max ∨ b'.net.inflightLo ≤ b.net.inflightLo) := by
  intro b0 b1 b b' hend hm
  obtain ⟨hl0, T, hc0, ho⟩ := run_ok (F := F) hp pre 0 _ _ hord (new_inv F p initial max mss rtt t0 factor 0) (new_ok F p initial max mss rtt t0 factor)
  have ho' : T ≤ t ∧ InOrder t (mid ++ [op]) := ho
  have e0 := event_short (F := F) hp hc0 hl0 t f a l least
  have hc1 := (event_inv F p hc0 t f a l least ho'.1).inv
  have split_loss : ∀ (xs : List BOp) (b : Bbr), NoLoss F p b (xs ++ [op]) → NoLoss F p b xs ∧ NoLoss F p (b.run F p xs) [op] := by
    intro xs
    induction xs with
    | nil => exact fun b h => ⟨trivial, h⟩
    | cons x xs ih => exact fun b h => ⟨⟨h.1, (ih _ h.2).1⟩, (ih _ h.2).2⟩
  obtain ⟨m1, m2⟩ := split_loss mid b1 hm
  have lost_eq : ∀ (b : Bbr) (now f : Nat) (a : List Acked) (l : List Lost), (seen F p b now f a l).1.lost = losses b now a l :=
    fun b now f a l => (start_keep F p b.net (.new now b.cwnd f b.mode.probing) a l).bytesLost
  have hrun := run_keep (F := F) (p := p) (P := fun b => LoOk b.mode b.net ∧ b.net.bytesLost = 0)
    (G := fun b op => match op with | .event now _ acked lost _ => losses b now acked lost = 0 | _ => True) (R := NoLoss F p)
    (fun T b now f a l least hc ht hp' hg => by
      have e := event_short (F := F) hp hc hp'.1 now f a l least
      refine ⟨e.ok, ?_⟩
      have := e.still.lost
      rw [e.start.lost, hp'.2, lost_eq, show losses b now a l = 0 from hg] at this
      exact Nat.le_zero.1 this)
    (fun T b op hop hc hp' => by
      obtain ⟨q1, -, q2⟩ := other_short (F := F) hp hc hp'.1 op hop
      have := q2.lost
      exact ⟨q1, by rw [hp'.2] at this; exact Nat.le_zero.1 this⟩)
    (fun b op ops h => h) mid t b1 [op] ho'.2 hc1 ⟨e0.ok, e0.ended hend⟩ m1
  obtain ⟨⟨hl, hb⟩, U, hc, ho2⟩ := hrun
  by_cases hop : ∃ now f a l least, op = .event now f a l least
  · obtain ⟨now, f, a, l, least, rfl⟩ := hop
    have e := event_short (F := F) hp hc hl now f a l least
    have hz : (seen F p b now f a l).2.bytesLost = 0 := by
      have := e.start.lost
      rw [hb, lost_eq, show losses (b1.run F p mid) now a l = 0 from m2.1] at this
      exact this
    rcases e.move with ⟨k, -⟩ | k
    · exact ⟨Or.inl k.1, Or.inl k.2⟩
    · have s := e.start.bw
      have s2 := e.start.lo
      have hn : ¬((seen F p b now f a l).1.endRound = true ∧ (CEvent.new now b.cwnd f b.mode.probing).probing = false ∧ 0 < (seen F p b now f a l).2.bytesLost) := by
        rw [hz]; exact fun h => by cases h.2.2
      rw [if_neg hn] at s s2
      exact ⟨Or.inr (k.1.trans s), Or.inr (Nat.le_trans k.2.1 (Nat.le_of_eq s2))⟩
  · obtain ⟨-, q, -⟩ := other_short (F := F) hp hc hl op (fun now f a l least h => hop ⟨now, f, a, l, least, h⟩)
    rcases q with ⟨k, -⟩ | k
    · exact ⟨Or.inl k.1, Or.inl k.2⟩
    · exact ⟨Or.inr k.1, Or.inr k.2.1⟩

/-- **C146**, cruising: when PROBE_DOWN gives way to PROBE_CRUISE the bound on the bytes in flight, if there is one, is not above the upper one. -/
theorem capped {F : Floats} {p : Params} (hp : p.loMode = .default) {T : Nat} {b : Bbr} (h : Ran F p T b) (now inFlight : Nat) (acked : List Acked) (lost : List Lost) (least : Nat) :
    let b' := b.step F p (.event now inFlight acked lost least)
    phase b = some .down → phase b' = some .cruise → b'.net.inflightLo ≤ b'.net.inflightHi ∨ b'.net.inflightLo = u64Max := by
  intro b' h1 h2
  have e := event_short hp h.inv (Ran.ok hp h) (F := F) now inFlight acked lost least
  obtain ⟨y, y1, y2⟩ := phase_mode h1
  obtain ⟨z, z1, z2⟩ := phase_mode h2
  have := (e.cruise y z y1 z1 y2 z2).2
  split at this
  · exact Or.inr this
  · left
    show (b.step F p (.event now inFlight acked lost least)).net.inflightLo ≤ _
    rw [this]
    exact Nat.min_le_left _ _

/-- **C146**, otherwise: nothing but an event lowers the bound on bandwidth; coming out of quiescence it may be given up with PROBE_REFILL. -/
theorem kept {F : Floats} {p : Params} (hp : p.loMode = .default) {T : Nat} {b : Bbr} (h : Ran F p T b) (op : BOp) (hop : ∀ now f a l least, op ≠ .event now f a l least) :
    let b' := b.step F p op
    (b'.net.bwLo = none ∧ b'.net.inflightLo = u64Max ∧ Refills b') ∨
    (b'.net.bwLo = b.net.bwLo ∧ b'.net.inflightLo ≤ b.net.inflightLo ∧ (b.net.inflightLo = u64Max → b'.net.inflightLo = u64Max)) := by
  intro b'
  obtain ⟨-, q, -⟩ := other_short (F := F) hp h.inv (Ran.ok hp h) op hop
  exact q.imp (fun k => ⟨k.1.1, k.1.2, (refills_iff _).2 k.2⟩) id

/-! ### Examples -/

/-- Startup, then three rounds with losses in PROBE_CRUISE, then time to probe again. -/
def cruel : List BOp :=
  flights 0 50000000 0 10 4 ++ losing 200000000 40 ++ losing 250000010 60 ++ losing 300000020 80 ++ flight 350000030 3000000000 100 10

/-- The sample's controller after so many operations. -/
def at_ (k : Nat) : Bbr := Bbr.sample.run .sample .default (cruel.take k)

/-- The end of a round with losses sets the bounds, the next one lowers them, PROBE_REFILL gives them up. -/
example : InOrder 0 cruel ∧ phase (at_ 64) = some .cruise ∧ (at_ 64).net.bwLo = none ∧ (at_ 65).net.bwLo = some 1920000 ∧ (at_ 65).net.inflightLo = 16800 ∧
    (at_ 94).net.bwLo = some 1920000 ∧ (at_ 95).net.bwLo = some 1919999 ∧ (at_ 95).net.inflightLo = 12000 ∧ (at_ 95).net.estimate = 1919999 ∧
    phase (at_ 145) = some .refill ∧ (at_ 145).net.bwLo = none ∧ (at_ 145).net.inflightLo = u64Max ∧ (at_ 145).net.estimate = 1920000 := by decide +kernel

/-- The bound is what was delivered in the round, which is more than 0.7 of what it was. -/
example : Params.default.loMode = .default ∧ (at_ 94).net.bwLatest = 1919999 ∧ Ends .sample .default (at_ 94) 300000020 24000 [80] [⟨81, 1200⟩] ∧
    ¬Seeks (at_ 94) ∧ 0 < losses (at_ 94) 300000020 [80] [⟨81, 1200⟩] := by
  unfold Ends Seeks
  decide +kernel

end Verif.Props.C146
