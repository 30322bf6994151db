import Verif.Props.C142

/-!
C143. BBR's congestion window: its bounds, its growth, what limits it in each mode, and its
scaling to another packet size.
-/

namespace Verif.Props.C143

open Verif.Bbr Verif.Props.C142

/-! ### Specification -/

/-- The bytes newly acknowledged in an event. -/
def newly (b : Bbr) (now : Nat) (acked : List Acked) (lost : List Lost) : Nat := (b.net.reported now acked lost).2.acked - b.net.sampler.acked

/-- The bandwidth-delay product of the estimated bandwidth, times a gain. -/
def product (F : Floats) (b : Bbr) (gain : Nat) : Nat := bytesPer (F.mulBw b.net.estimate gain) b.net.minRtt

/-- The limit on the window by the mode. -/
def cap (F : Floats) (p : Params) (b : Bbr) : Nat :=
  match b.mode with
  | .startup | .drain _ => b.net.inflightLo
  | .probeBw y =>
    match y.phase with
    | .cruise => min b.net.inflightLo (b.net.inflightHi - F.part b.net.inflightHi p.headroom)
    | .up => if p.ignoreHi then b.net.inflightLo else min b.net.inflightLo b.net.inflightHi
    | _ => min b.net.inflightLo b.net.inflightHi
  | .probeRtt _ _ =>
    min (min b.net.inflightLo (b.net.inflightHi - F.part b.net.inflightHi p.headroom)) (bytesPer (F.mulBw (max b.net.maxBw0 b.net.maxBw1) p.rttFraction) b.net.minRtt)

/-! ### Proof -/

/-- The state before the window is set. -/
def before (F : Floats) (p : Params) (b : Bbr) (now inFlight : Nat) (acked : List Acked) (lost : List Lost) : Bbr :=
  (b.moded F p now inFlight acked lost).2.updateRate F p (seen F p b now inFlight acked lost).1.acked

theorem cwnd_eq (F : Floats) (p : Params) (b : Bbr) (now inFlight : Nat) (acked : List Acked) (lost : List Lost) (least : Nat) :
    (b.onEvent F p now inFlight acked lost least).2.cwnd =
      applyLimits (before F p b now inFlight acked lost).lo (before F p b now inFlight acked lost).hi
        (applyLimits 0 ((before F p b now inFlight acked lost).modeHi F p) ((before F p b now inFlight acked lost).wantCwnd F (seen F p b now inFlight acked lost).1.acked)) := rfl

/-- What the rest of the event leaves alone. -/
structure Fin (n m : Net) : Prop where
  bwLo : m.bwLo = n.bwLo
  bw0 : m.maxBw0 = n.maxBw0
  bw1 : m.maxBw1 = n.maxBw1
  rtt : m.minRtt = n.minRtt
  lo : m.inflightLo = n.inflightLo
  hi : m.inflightHi = n.inflightHi
  gain : m.cwndGain = n.cwndGain
  full : m.full = n.full
  height : m.sampler.maxAckHeight = n.sampler.maxAckHeight
  acked : m.sampler.acked = n.sampler.acked

theorem finish_fin (n : Net) (c : CEvent) (least : Nat) : Fin n (n.finish c least) := by
  unfold Net.finish
  dsimp only
  by_cases h : c.endRound = true
  · rw [if_pos h]; exact ⟨rfl, rfl, rfl, rfl, rfl, rfl, rfl, rfl, rfl, rfl⟩
  · rw [if_neg h]; exact ⟨rfl, rfl, rfl, rfl, rfl, rfl, rfl, rfl, rfl, rfl⟩

/-- The window of an event in terms of what is there after it. -/
theorem cwnd_after {F : Floats} {p : Params} {n : Nat} {b : Bbr} (h : Reached F p n b) (now inFlight : Nat) (acked : List Acked) (lost : List Lost) (least : Nat)
    (hov : Small b now acked lost) :
    let b' := (b.onEvent F p now inFlight acked lost least).2
    let t := max (product F b' b'.net.cwndGain) b.lo
    b'.lo = b.lo ∧ b'.hi = b.hi ∧ b'.initial = b.initial ∧ b'.mss = b.mss ∧
    b'.cwnd = applyLimits b.lo b.hi (applyLimits 0 (cap F p b') (
      if b'.net.full = true then min (t + b'.net.sampler.maxAckHeight.getD 0) (b.cwnd + newly b now acked lost)
      else if b.cwnd < t ∨ b.cwnd < 2 * b.initial then b.cwnd + newly b now acked lost else b.cwnd)) := by
  dsimp only
  obtain ⟨hi, he⟩ := event_binv h.inv F now inFlight acked lost least hov
  obtain ⟨a1, a2, a3⟩ := event_after F p b now inFlight acked lost least
  have fin := finish_fin (b.moded F p now inFlight acked lost).2.net (b.net.start F p (.new now b.cwnd inFlight b.mode.probing) acked lost).1 least
  rw [← a3] at fin
  obtain ⟨u1, u2, u3, u4, u5, u6, u7, u8, u9⟩ := updateRate_keep F p (b.moded F p now inFlight acked lost).2 (seen F p b now inFlight acked lost).1.acked
  obtain ⟨k1, k2, k3, k4, k5, k6, k7⟩ := he.keep
  have hacc : (seen F p b now inFlight acked lost).1.acked = newly b now acked lost :=
    (start_keep F p b.net (.new now b.cwnd inFlight b.mode.probing) acked lost).bytesAcked
  refine ⟨u5.trans k4, u6.trans k5, u7.trans k6, u8.trans k2, ?_⟩
  rw [cwnd_eq]
  have e1 : (before F p b now inFlight acked lost).lo = b.lo := u5.trans k4
  have e2 : (before F p b now inFlight acked lost).hi = b.hi := u6.trans k5
  have e3 : (before F p b now inFlight acked lost).cwnd = b.cwnd := u4.trans k1
  have e4 : (before F p b now inFlight acked lost).initial = b.initial := u7.trans k6
  have e5 : (before F p b now inFlight acked lost).mode = (b.onEvent F p now inFlight acked lost least).2.mode := u2.trans a1.symm
  have e6 : (before F p b now inFlight acked lost).net = (b.moded F p now inFlight acked lost).2.net := u1
  have est : (b.onEvent F p now inFlight acked lost least).2.net.estimate = (before F p b now inFlight acked lost).net.estimate := by
    unfold Net.estimate Net.maxBw
    rw [e6, fin.bwLo, fin.bw0, fin.bw1]
  have hcap : (before F p b now inFlight acked lost).modeHi F p = cap F p (b.onEvent F p now inFlight acked lost least).2 := by
    unfold Bbr.modeHi cap Net.hiHeadroom rttTarget Net.bdp Net.maxBw
    rw [e5, fin.lo, fin.hi, fin.bw0, fin.bw1, fin.rtt, e6]
    cases (b.onEvent F p now inFlight acked lost least).2.mode with
    | startup => rfl
    | drain y => rfl
    | probeBw y =>
      dsimp only
      cases y.phase with
      | cruise => rfl
      | up =>
        dsimp only
        rw [if_neg (fun h => by cases h)]
        cases p.ignoreHi <;> rfl
      | notStarted => rfl
      | down => rfl
      | refill => rfl
    | probeRtt y e => rfl
  rw [e1, e2, hcap]
  unfold Bbr.wantCwnd Net.bdp product Net.ackHeight
  dsimp only
  rw [est, fin.rtt, fin.gain, fin.full, fin.height, hacc, e1, e3, e4, e6]

theorem limits_le (lo hi v : Nat) : applyLimits lo hi v ≤ hi ∧ min lo hi ≤ applyLimits lo hi v ∧ applyLimits lo hi v ≤ max lo v := by
  unfold applyLimits
  omega

/-! The bounds on the bytes in flight in Startup. -/

theorem takeBw_lo (n : Net) (e : EventSample) (a : Nat) : (n.takeBw e a).2.inflightLo = n.inflightLo := by
  unfold Net.takeBw
  split
  · rfl
  · split
    · rfl
    · split <;> rfl

theorem takeRtt_lo (n : Net) (e : EventSample) (now : Nat) : (n.takeRtt e now).inflightLo = n.inflightLo := by
  unfold Net.takeRtt
  split
  · rfl
  · split <;> rfl

theorem takeLoss_lo (n : Net) (l : Nat) : (n.takeLoss l).inflightLo = n.inflightLo := by
  unfold Net.takeLoss
  split <;> rfl

theorem takeDelivered_lo (n : Net) (c : CEvent) : (n.takeDelivered c).inflightLo = n.inflightLo := by
  unfold Net.takeDelivered
  split <;> rfl

theorem endLatest_lo (n : Net) (e : EventSample) (r : Bool) : (n.endLatest e r).inflightLo = n.inflightLo := by
  unfold Net.endLatest
  split <;> rfl

theorem eventRound_lo (n : Net) (acked : List Acked) : (n.eventRound acked).2.inflightLo = n.inflightLo := by
  unfold Net.eventRound
  split
  · unfold Net.ackRound
    split
    · split <;> rfl
    · rfl
  · rfl

theorem adaptLower_lo (F : Floats) (p : Params) (n : Net) (c : CEvent) (h : c.probing = true) : (n.adaptLower F p c).inflightLo = n.inflightLo := by
  unfold Net.adaptLower
  split
  · rw [if_pos (Or.inr h)]
  · split
    · rfl
    · split
      · rfl
      · unfold Net.lowerOther
        dsimp only
        split <;> rfl

/-- While probing, an event leaves the lower bound on the bytes in flight alone. -/
theorem start_lo (F : Floats) (p : Params) (n : Net) (c : CEvent) (acked : List Acked) (lost : List Lost) (h : c.probing = true) :
    (n.start F p c acked lost).2.inflightLo = n.inflightLo := by
  unfold Net.start
  dsimp only
  rw [endLatest_lo, adaptLower_lo]
  · show (Net.takeDelivered _ _).inflightLo = _
    rw [takeDelivered_lo, takeLoss_lo, takeRtt_lo, takeBw_lo]
    exact eventRound_lo n acked
  · exact h

theorem growth_lo (F : Floats) (p : Params) (n : Net) (c : CEvent) : (n.growth F p c).2.inflightLo = n.inflightLo ∧ (n.growth F p c).2.inflightHi = n.inflightHi := by
  unfold Net.growth
  split
  · exact ⟨rfl, rfl⟩
  · split <;> exact ⟨rfl, rfl⟩

theorem checkQueue_lo (F : Floats) (p : Params) (n : Net) (g : Nat) : (n.checkQueue F p g).inflightLo = n.inflightLo ∧ (n.checkQueue F p g).inflightHi = n.inflightHi := by
  unfold Net.checkQueue
  split <;> exact ⟨rfl, rfl⟩

/-- Startup, as long as it stays, leaves the bounds on the bytes in flight alone. -/
theorem startup_lo (F : Floats) (p : Params) (n : Net) (c : CEvent) (x : Option Exit) (cwnd : Nat) (h : (onStartup F p n c x cwnd).1.kind = 0) :
    (onStartup F p n c x cwnd).2.1.inflightLo = n.inflightLo ∧ (onStartup F p n c x cwnd).2.1.inflightHi = n.inflightHi := by
  unfold onStartup at h ⊢
  by_cases hf : n.full = true
  · rw [if_pos hf] at h; cases h
  rw [if_neg hf] at h ⊢
  by_cases he : c.endRound = false
  · rw [if_pos he]; exact ⟨rfl, rfl⟩
  rw [if_neg he] at h ⊢
  dsimp only at h ⊢
  have h1 : (startupPlateau F p n c x cwnd).2.1.inflightLo = n.inflightLo ∧ (startupPlateau F p n c x cwnd).2.1.inflightHi = n.inflightHi := growth_lo F p n c
  generalize startupPlateau F p n c x cwnd = g at h h1 ⊢
  have h2 : (startupQueue F p g.2.1 g.2.2 cwnd g.1).1.inflightLo = n.inflightLo ∧ (startupQueue F p g.2.1 g.2.2 cwnd g.1).1.inflightHi = n.inflightHi := by
    unfold startupQueue
    split
    · exact ⟨(checkQueue_lo F p g.2.1 queueGain).1.trans h1.1, (checkQueue_lo F p g.2.1 queueGain).2.trans h1.2⟩
    · exact h1
  generalize startupQueue F p g.2.1 g.2.2 cwnd g.1 = q at h h2 ⊢
  by_cases hl : (startupLoss F p q.1 c q.2 cwnd g.1).1.full = true
  · rw [if_pos hl] at h; cases h
  · rw [if_neg hl]
    unfold startupLoss at hl ⊢
    split at hl
    · next hc =>
      rw [if_pos hc]
      dsimp only at hl ⊢
      unfold Net.checkLosses at hl ⊢
      split at hl
      · exact absurd rfl hl
      · next ht => rw [if_neg ht]; exact h2
    · next hc => rw [if_neg hc]; exact h2

/-- In Startup the bytes in flight are not bounded. -/
def Unbounded (b : Bbr) : Prop := b.mode.kind = 0 → b.net.inflightLo = u64Max ∧ b.net.inflightHi = u64Max

theorem loop_startup (F : Floats) (p : Params) (c : CEvent) (k : Nat) (b : Bbr) (A : Nat) (hr : rank b.mode < k) (h : ModeOk p A b.mode b.net b.exit)
    (hst : c.state.valid = true → c.state.acked ≤ b.net.sampler.acked) (hov : c.priorCwnd + (A + c.acked) ≤ u64Max) (h0 : (b.loop F p c k).2.mode.kind = 0) :
    b.mode = .startup ∧ (b.loop F p c k).2 = b.doEvent F p c := by
  obtain ⟨g1, g2, g3, g4⟩ := doEvent_called F p b c h hst hov
  have toS : ∀ m : Mode, m.kind = 0 → m = .startup := by intro m hm; cases m <;> first | rfl | cases hm
  cases k with
  | zero => exact absurd hr (Nat.not_lt_zero _)
  | succ k =>
    unfold Bbr.loop at h0 ⊢
    rcases g3 with ⟨d1, d2, d3⟩ | ⟨d1, d2, d3, d4⟩
    · rw [if_pos d1] at h0 ⊢
      exact ⟨toS _ (d1.symm.trans h0), rfl⟩
    · rw [if_neg d2] at h0
      obtain ⟨-, -, -, -, -, ⟨j, -, e6⟩, -⟩ := loop_rest F p c k (b.doEvent F p c) (by omega) d3 (by rw [g1.sampler]; exact hst) hov
      have hne : (b.doEvent F p c).mode.kind ≠ 0 := by
        rcases d1 with d | d | d | d <;> (rw [d.2]; decide)
      refine absurd (kindM_of (b := .startup) h0) ((path_late (path_of e6)).1 ?_)
      intro h6
      apply hne
      generalize (b.doEvent F p c).mode = m at h6
      cases m with
      | startup => rfl
      | drain y => cases h6
      | probeBw y => cases h6
      | probeRtt y e => cases h6

theorem unbounded_event {F : Floats} {p : Params} {n : Nat} {b : Bbr} (h : BInv p n b) (hu : Unbounded b) (now inFlight : Nat) (acked : List Acked) (lost : List Lost) (least : Nat)
    (hov : Small b now acked lost) : Unbounded (b.onEvent F p now inFlight acked lost least).2 := by
  intro h0
  obtain ⟨a1, a2, a3⟩ := event_after F p b now inFlight acked lost least
  have hk := start_keep F p b.net (.new now b.cwnd inFlight b.mode.probing) acked lost
  obtain ⟨h1, h2, h3, h4, h5⟩ := start_ok F p b.net (.new now b.cwnd inFlight b.mode.probing) acked lost h.samp h.ok rfl
  have hm : ModeOk p b.net.sampler.acked b.mode (b.net.start F p (.new now b.cwnd inFlight b.mode.probing) acked lost).2 b.exit :=
    h.mode.congr hk.full hk.pacingGain hk.cwndGain
  have hp : (b.net.start F p (.new now b.cwnd inFlight b.mode.probing) acked lost).1.priorCwnd = b.cwnd := hk.priorCwnd
  obtain ⟨l1, l2⟩ := loop_startup F p (b.net.start F p (.new now b.cwnd inFlight b.mode.probing) acked lost).1 maxChanges
    { b with net := (b.net.start F p (.new now b.cwnd inFlight b.mode.probing) acked lost).2 } b.net.sampler.acked (rank_lt _) hm h5
    (by rw [hp, h3, hk.sampler]; exact hov) (by rw [← h0, a1]; rfl)
  have l1' : b.mode = .startup := l1
  have hmod : (b.moded F p now inFlight acked lost).2 = Bbr.doEvent F p { b with net := (b.net.start F p (.new now b.cwnd inFlight b.mode.probing) acked lost).2 }
    (b.net.start F p (.new now b.cwnd inFlight b.mode.probing) acked lost).1 := l2
  have fin := finish_fin (b.moded F p now inFlight acked lost).2.net (b.net.start F p (.new now b.cwnd inFlight b.mode.probing) acked lost).1 least
  rw [← a3] at fin
  rw [fin.lo, fin.hi]
  have hst : (b.moded F p now inFlight acked lost).2.mode.kind = 0 := by rw [← a1]; exact h0
  rw [hmod] at hst ⊢
  unfold Bbr.doEvent at hst ⊢
  dsimp only at hst ⊢
  rw [l1'] at hst ⊢
  dsimp only at hst ⊢
  obtain ⟨s1, s2⟩ := startup_lo F p _ _ _ _ hst
  rw [s1, s2, start_lo F p b.net _ acked lost rfl, (start_keep F p b.net _ acked lost).hi]
  exact hu (by rw [l1']; rfl)

theorem unbounded_step {F : Floats} {p : Params} {n : Nat} {b : Bbr} (h : BInv p n b) (hu : Unbounded b) (op : BOp) (hf : Fits F p b [op]) : Unbounded (b.step F p op) := by
  cases op with
  | event now f a l least => exact unbounded_event h hu now f a l least hf.1
  | sent now f pn bytes el =>
    have : Unbounded (if f = 0 then b.exitQuiet p now else b) := by
      split
      · unfold Bbr.exitQuiet
        split
        · exact hu
        · unfold Bbr.wake
          dsimp only
          split
          · exact hu
          · exact hu
          · exact hu
          · intro h0; cases h0
          · split
            · intro h0; cases h0
            · exact hu
      · exact hu
    exact this
  | neutered pn => exact hu
  | appLimited f =>
    show Unbounded (b.onAppLimited f)
    unfold Bbr.onAppLimited
    split <;> exact hu
  | mss m f => exact hu
  | limit m => exact hu

theorem unbounded_run {F : Floats} {p : Params} : ∀ (ops : List BOp) {n : Nat} {b : Bbr} (_ : BInv p n b) (_ : Unbounded b) (_ : Numbered n ops) (_ : Fits F p b ops),
    Unbounded (b.run F p ops)
  | [], _, _, _, hu, _, _ => hu
  | op :: ops, n, b, h, hu, hn, hf => by
    have h1 : Numbered n [op] := by cases op <;> first | exact ⟨hn.1, trivial⟩ | exact trivial
    have h2 : Numbered (nextPn n op) ops := by cases op <;> first | exact hn.2 | exact hn
    exact unbounded_run ops (step_binv h F op h1 ⟨hf.1, trivial⟩) (unbounded_step h hu op ⟨hf.1, trivial⟩) h2 hf.2

theorem reached_unbounded {F : Floats} {p : Params} {n : Nat} {b : Bbr} (h : Reached F p n b) : Unbounded b := by
  obtain ⟨i, m, s, r, t, f, ops, h1, h2, h3, h4⟩ := h
  rw [h3]
  exact unbounded_run ops (new_binv F p i m s r t f) (fun _ => ⟨rfl, rfl⟩) h1 h2

/-! ### Theorems -/

/-- After an event the window lies between the bounds, which stay; the upper one wins. -/
theorem bounds {F : Floats} {p : Params} {n : Nat} {b : Bbr} (h : Reached F p n b) (now inFlight : Nat) (acked : List Acked) (lost : List Lost) (least : Nat)
    (hov : Small b now acked lost) :
    let b' := (b.onEvent F p now inFlight acked lost least).2
    b'.lo = b.lo ∧ b'.hi = b.hi ∧ b'.cwnd ≤ b.hi ∧ min b.lo b.hi ≤ b'.cwnd := by
  dsimp only
  obtain ⟨h1, h2, -, -, h3⟩ := cwnd_after h now inFlight acked lost least hov
  refine ⟨h1, h2, ?_, ?_⟩ <;> rw [h3]
  · exact (limits_le _ _ _).1
  · exact (limits_le _ _ _).2.1

/-- An event adds no more to the window than the bytes it acknowledges, but for the lower bound. -/
theorem growth {F : Floats} {p : Params} {n : Nat} {b : Bbr} (h : Reached F p n b) (now inFlight : Nat) (acked : List Acked) (lost : List Lost) (least : Nat)
    (hov : Small b now acked lost) : (b.onEvent F p now inFlight acked lost least).2.cwnd ≤ max b.lo (b.cwnd + newly b now acked lost) := by
  obtain ⟨-, -, -, -, h3⟩ := cwnd_after h now inFlight acked lost least hov
  rw [h3]
  unfold applyLimits
  split
  · omega
  · split <;> omega

/-- After Startup the window exceeds the product of bandwidth and delay, times the gain of the mode, at most by the height of ack aggregation. -/
theorem full {F : Floats} {p : Params} {n : Nat} {b : Bbr} (h : Reached F p n b) (now inFlight : Nat) (acked : List Acked) (lost : List Lost) (least : Nat)
    (hov : Small b now acked lost) :
    let b' := (b.onEvent F p now inFlight acked lost least).2
    kind b' ≠ .startup → b'.cwnd ≤ max (product F b' (gains p b').2) b.lo + b'.net.sampler.maxAckHeight.getD 0 := by
  dsimp only
  intro hk
  obtain ⟨hi, -⟩ := event_binv h.inv F now inFlight acked lost least hov
  have hf : (b.onEvent F p now inFlight acked lost least).2.net.full = true := by
    have hm := hi.mode
    unfold kind at hk
    generalize (b.onEvent F p now inFlight acked lost least).2.mode = m at hm hk
    cases m with
    | startup => exact absurd rfl hk
    | drain y => exact hm.1
    | probeBw y => exact hm.1
    | probeRtt y e => exact hm.1
  have hg := in_force h now inFlight acked lost least hov
  obtain ⟨-, -, -, -, h3⟩ := cwnd_after h now inFlight acked lost least hov
  rw [h3, ← hg, if_pos hf]
  unfold applyLimits
  dsimp only
  omega

/-- The window is within the limit of the mode, but for the lower bound. -/
theorem capped {F : Floats} {p : Params} {n : Nat} {b : Bbr} (h : Reached F p n b) (now inFlight : Nat) (acked : List Acked) (lost : List Lost) (least : Nat)
    (hov : Small b now acked lost) :
    let b' := (b.onEvent F p now inFlight acked lost least).2
    b'.cwnd ≤ max b.lo (cap F p b') := by
  dsimp only
  obtain ⟨-, -, -, -, h3⟩ := cwnd_after h now inFlight acked lost least hov
  rw [h3]
  unfold applyLimits
  omega

/-- In Startup the window grows by the bytes acknowledged while it is below twice the initial window or what the bandwidth asks for, and does not shrink
but to the upper bound. -/
theorem startup {F : Floats} {p : Params} {n : Nat} {b : Bbr} (h : Reached F p n b) (now inFlight : Nat) (acked : List Acked) (lost : List Lost) (least : Nat)
    (hov : Small b now acked lost) :
    let b' := (b.onEvent F p now inFlight acked lost least).2
    kind b' = .startup → b'.cwnd = min (max b.lo (
      if b.cwnd < max (product F b' p.startupCwndGain) b.lo ∨ b.cwnd < 2 * b.initial then b.cwnd + newly b now acked lost else b.cwnd)) b.hi := by
  dsimp only
  intro hk
  obtain ⟨hi, -⟩ := event_binv h.inv F now inFlight acked lost least hov
  have hm := hi.mode
  have h0 : (b.onEvent F p now inFlight acked lost least).2.mode = .startup := by
    unfold kind at hk
    generalize (b.onEvent F p now inFlight acked lost least).2.mode = m at hk
    cases m with
    | startup => rfl
    | drain y => cases hk
    | probeBw y => cases hk
    | probeRtt y e => cases hk
  rw [h0] at hm
  obtain ⟨u1, -⟩ := unbounded_event (F := F) h.inv (reached_unbounded h) now inFlight acked lost least hov (by rw [h0]; rfl)
  obtain ⟨-, -, -, -, h3⟩ := cwnd_after h now inFlight acked lost least hov
  have hcap : cap F p (b.onEvent F p now inFlight acked lost least).2 = u64Max := by
    unfold cap
    rw [h0]
    exact u1
  have hn : b.cwnd + newly b now acked lost ≤ u64Max := by
    unfold Small at hov
    unfold newly
    omega
  rw [h3, if_neg (by rw [hm.1]; decide), hcap, hm.2.2.2]
  unfold applyLimits
  split <;> omega

/-- The packet size does not change. -/
def Steady : List BOp → Prop
  | [] => True
  | .mss _ _ :: _ => False
  | _ :: ops => Steady ops

theorem sent_acked {p : Params} {n : Nat} {b : Bbr} (h : BInv p n b) (now f pn bytes : Nat) (el : Bool) :
    (b.onSent p now f pn bytes el).net.sampler.acked = b.net.sampler.acked ∧ (b.onSent p now f pn bytes el).cwnd = b.cwnd ∧ (b.onSent p now f pn bytes el).lo = b.lo := by
  have h1 : (if f = 0 then b.exitQuiet p now else b).net.sampler.acked = b.net.sampler.acked ∧ (if f = 0 then b.exitQuiet p now else b).cwnd = b.cwnd ∧
      (if f = 0 then b.exitQuiet p now else b).lo = b.lo := by
    split
    · unfold Bbr.exitQuiet
      split
      · exact ⟨rfl, rfl, rfl⟩
      · refine ⟨by rw [(wake_inv (b := { b with quiet := none }) ⟨h.samp, h.ok, h.mode⟩ now _).2], ?_⟩
        unfold Bbr.wake
        dsimp only
        split
        · exact ⟨rfl, rfl⟩
        · exact ⟨rfl, rfl⟩
        · exact ⟨rfl, rfl⟩
        · exact ⟨rfl, rfl⟩
        · split <;> exact ⟨rfl, rfl⟩
    · exact ⟨rfl, rfl, rfl⟩
  refine ⟨?_, h1.2.1, h1.2.2⟩
  rw [← h1.1]
  exact (onSent_same _ _ _ _ _ _).1

theorem total_run {F : Floats} {p : Params} : ∀ (ops : List BOp) {n : Nat} {b : Bbr} (_ : Reached F p n b) (_ : Numbered n ops) (_ : Fits F p b ops) (_ : Steady ops)
    (_ : b.cwnd ≤ b.lo + b.net.sampler.acked), (b.run F p ops).lo = b.lo ∧ (b.run F p ops).cwnd ≤ b.lo + (b.run F p ops).net.sampler.acked
  | [], _, _, _, _, _, _, hc => ⟨rfl, hc⟩
  | op :: ops, n, b, h, hn, hf, hs, hc => by
    have h1 : Numbered n [op] := by cases op <;> first | exact ⟨hn.1, trivial⟩ | exact trivial
    have h2 : Numbered (nextPn n op) ops := by cases op <;> first | exact hn.2 | exact hn
    have h3 : Steady ops := by cases op <;> first | exact hs | exact absurd hs id
    have one : (b.step F p op).lo = b.lo ∧ (b.step F p op).cwnd ≤ b.lo + (b.step F p op).net.sampler.acked := by
      cases op with
      | event now f a l least =>
        obtain ⟨b1, -⟩ := bounds h now f a l least hf.1
        refine ⟨b1, ?_⟩
        have g := growth h now f a l least hf.1
        have hacc : (b.onEvent F p now f a l least).2.net.sampler.acked = (b.net.reported now a l).2.acked := by
          obtain ⟨-, he⟩ := event_binv h.inv F now f a l least hf.1
          rw [(event_after F p b now f a l least).2.2, (finish_fin _ _ _).acked, he.same.sampler,
            (start_keep F p b.net (.new now b.cwnd f b.mode.probing) a l).sampler]
          rfl
        have hm := (start_ok F p b.net (.new now b.cwnd f b.mode.probing) a l h.inv.samp h.inv.ok rfl).2.2.1
        rw [(start_keep F p b.net (.new now b.cwnd f b.mode.probing) a l).sampler] at hm
        have hm' : b.net.sampler.acked ≤ (b.net.reported now a l).2.acked := by
          have : (b.net.reported (CEvent.new now b.cwnd f b.mode.probing).now a l) = b.net.reported now a l := rfl
          rw [this] at hm
          omega
        show (b.onEvent F p now f a l least).2.cwnd ≤ b.lo + (b.onEvent F p now f a l least).2.net.sampler.acked
        rw [hacc]
        unfold newly at g
        omega
      | sent now f pn bytes el =>
        obtain ⟨s1, s2, s3⟩ := sent_acked h.inv now f pn bytes el
        exact ⟨s3, by show (b.onSent p now f pn bytes el).cwnd ≤ b.lo + (b.onSent p now f pn bytes el).net.sampler.acked; rw [s1, s2]; exact hc⟩
      | neutered pn => exact ⟨rfl, hc⟩
      | appLimited f =>
        show (b.onAppLimited f).lo = b.lo ∧ (b.onAppLimited f).cwnd ≤ b.lo + (b.onAppLimited f).net.sampler.acked
        unfold Bbr.onAppLimited
        split <;> exact ⟨rfl, hc⟩
      | mss m f => exact absurd hs id
      | limit m => exact ⟨rfl, hc⟩
    obtain ⟨r1, r2⟩ := total_run ops (h.step op h1 ⟨hf.1, trivial⟩) h2 hf.2 h3 (by rw [one.1]; exact one.2)
    rw [one.1] at r1 r2
    exact ⟨r1, r2⟩

/-- While the packet size stays, the window is at most the initial one and all bytes acknowledged. -/
theorem total {F : Floats} {p : Params} (initial max mss rtt now factor : Nat) (ops : List BOp) (hn : Numbered 0 ops)
    (hf : Fits F p (Bbr.new F p initial max mss rtt now factor) ops) (hs : Steady ops) :
    ((Bbr.new F p initial max mss rtt now factor).run F p ops).cwnd ≤ initial * mss + ((Bbr.new F p initial max mss rtt now factor).run F p ops).net.sampler.acked :=
  (total_run ops ⟨⟨initial, max, mss, rtt, now, factor, [], trivial, trivial, rfl, rfl⟩⟩ hn hf hs (Nat.le_add_right _ _)).2

/-- Neither the packet size changes nor a maximum pacing rate is in force. -/
def Plain : List BOp → Prop
  | [] => True
  | .mss _ _ :: _ => False
  | .limit _ :: _ => False
  | _ :: ops => Plain ops

theorem sent_bounds (p : Params) (b : Bbr) (now f pn bytes : Nat) (el : Bool) :
    (b.onSent p now f pn bytes el).hi = b.hi ∧ (b.onSent p now f pn bytes el).cwnd = b.cwnd ∧ (b.onSent p now f pn bytes el).lo = b.lo := by
  show (if f = 0 then b.exitQuiet p now else b).hi = b.hi ∧ (if f = 0 then b.exitQuiet p now else b).cwnd = b.cwnd ∧ (if f = 0 then b.exitQuiet p now else b).lo = b.lo
  split
  · unfold Bbr.exitQuiet
    split
    · exact ⟨rfl, rfl, rfl⟩
    · unfold Bbr.wake
      dsimp only
      split
      · exact ⟨rfl, rfl, rfl⟩
      · exact ⟨rfl, rfl, rfl⟩
      · exact ⟨rfl, rfl, rfl⟩
      · exact ⟨rfl, rfl, rfl⟩
      · split <;> exact ⟨rfl, rfl, rfl⟩
  · exact ⟨rfl, rfl, rfl⟩

theorem range_run {F : Floats} {p : Params} : ∀ (ops : List BOp) {n : Nat} {b : Bbr} (_ : Reached F p n b) (_ : Numbered n ops) (_ : Fits F p b ops) (_ : Plain ops)
    (_ : b.lo ≤ b.hi) (_ : b.lo ≤ b.cwnd) (_ : b.cwnd ≤ b.hi), b.lo ≤ (b.run F p ops).cwnd ∧ (b.run F p ops).cwnd ≤ b.hi
  | [], _, _, _, _, _, _, _, h1, h2 => ⟨h1, h2⟩
  | op :: ops, n, b, h, hn, hf, hs, hb, hl, hh => by
    have h1 : Numbered n [op] := by cases op <;> first | exact ⟨hn.1, trivial⟩ | exact trivial
    have h2 : Numbered (nextPn n op) ops := by cases op <;> first | exact hn.2 | exact hn
    have h3 : Plain ops := by cases op <;> first | exact hs | exact absurd hs id
    have one : (b.step F p op).lo = b.lo ∧ (b.step F p op).hi = b.hi ∧ b.lo ≤ (b.step F p op).cwnd ∧ (b.step F p op).cwnd ≤ b.hi := by
      cases op with
      | event now f a l least =>
        obtain ⟨b1, b2, b3, b4⟩ := bounds h now f a l least hf.1
        exact ⟨b1, b2, by show _ ≤ (b.onEvent F p now f a l least).2.cwnd; omega, b3⟩
      | sent now f pn bytes el =>
        obtain ⟨s1, s2, s3⟩ := sent_bounds p b now f pn bytes el
        exact ⟨s3, s1, by show _ ≤ (b.onSent p now f pn bytes el).cwnd; omega, by show (b.onSent p now f pn bytes el).cwnd ≤ _; omega⟩
      | neutered pn => exact ⟨rfl, rfl, hl, hh⟩
      | appLimited f =>
        show (b.onAppLimited f).lo = b.lo ∧ (b.onAppLimited f).hi = b.hi ∧ b.lo ≤ (b.onAppLimited f).cwnd ∧ (b.onAppLimited f).cwnd ≤ b.hi
        unfold Bbr.onAppLimited
        split <;> exact ⟨rfl, rfl, hl, hh⟩
      | mss m f => exact absurd hs id
      | limit m => exact absurd hs id
    obtain ⟨o1, o2, o3, o4⟩ := one
    have r := range_run ops (h.step op h1 ⟨hf.1, trivial⟩) h2 hf.2 h3 (by omega) (by omega) (by omega)
    rw [o1, o2] at r
    exact r

/-- While the packet size stays and without a maximum pacing rate, the window is at no time below the initial one, nor above the configured maximum. -/
theorem floor_partial {F : Floats} {p : Params} (initial max mss rtt now factor : Nat) (hm : initial ≤ max) (ops : List BOp) (hn : Numbered 0 ops)
    (hf : Fits F p (Bbr.new F p initial max mss rtt now factor) ops) (hs : Plain ops) :
    initial * mss ≤ ((Bbr.new F p initial max mss rtt now factor).run F p ops).cwnd ∧ ((Bbr.new F p initial max mss rtt now factor).run F p ops).cwnd ≤ max * mss :=
  range_run ops ⟨⟨initial, max, mss, rtt, now, factor, [], trivial, trivial, rfl, rfl⟩⟩ hn hf hs (Nat.mul_le_mul_right _ hm) (Nat.le_refl _) (Nat.mul_le_mul_right _ hm)

/-- Another packet size scales the window and its bounds alike, and keeps their order. -/
theorem scale (F : Floats) (p : Params) (b : Bbr) (mss factor : Nat) :
    let b' := b.step F p (.mss mss factor)
    b'.cwnd = b.cwnd * mss / b.mss ∧ b'.lo = b.lo * mss / b.mss ∧ b'.hi = b.hi * mss / b.mss ∧ b'.mss = mss ∧
    (b.lo ≤ b.cwnd → b'.lo ≤ b'.cwnd) ∧ (b.cwnd ≤ b.hi → b'.cwnd ≤ b'.hi) :=
  ⟨rfl, rfl, rfl, rfl, fun h => Nat.div_le_div_right (Nat.mul_le_mul_right _ h), fun h => Nat.div_le_div_right (Nat.mul_le_mul_right _ h)⟩

/-- Of whole packets nothing is lost. -/
theorem scale_whole (F : Floats) (p : Params) (b : Bbr) (k mss factor : Nat) (hm : b.mss ≠ 0) (h : b.cwnd = k * b.mss) : (b.step F p (.mss mss factor)).cwnd = k * mss := by
  show b.cwnd * mss / b.mss = k * mss
  rw [h, Nat.mul_assoc, Nat.mul_comm b.mss mss, ← Nat.mul_assoc, Nat.mul_div_cancel _ (Nat.pos_of_ne_zero hm)]

/-- The claim that the window never falls below the initial one. -/
def Floor (F : Floats) (p : Params) : Prop := ∀ (ops : List BOp), Numbered 0 ops → Fits F p .sample ops → Steady ops → 12000 ≤ (Bbr.sample.run F p ops).cwnd

/-- It is false: a maximum pacing rate bounds the window by the bytes sent in a round trip at that rate, however few. At 1 Mbit/s and a round trip of
50 µs these are 7 bytes: less than any packet. -/
theorem floor_false : ¬ Floor .sample .default := by
  intro h
  have := h (flight 0 50000000 0 10 ++ [.limit (bytesPer (1250000) 50000)] ++ flight 50000000 50000 10 10) (by decide +kernel) (by decide +kernel) (by simp [flight, burst, Steady])
  exact absurd this (by decide +kernel)

/-! ### Examples -/

/-- Startup doubles the window with a full flight acknowledged. -/
example : (Bbr.sample.run .sample .default (flights 0 50000000 0 10 1)).cwnd = 24000 ∧ (Bbr.sample.run .sample .default (flights 0 50000000 0 10 2)).cwnd = 24000 ∧
    newly (Bbr.sample.run .sample .default (burst 0 0 0 10)) 50000000 [0, 1, 2, 3, 4, 5, 6, 7, 8, 9] [] = 12000 ∧
    (Bbr.sample.run .sample .default lossy).cwnd ≤ 12000 + (Bbr.sample.run .sample .default lossy).net.sampler.acked := by decide +kernel

/-- From 1200 to 1450 bytes. -/
example : (Bbr.sample.step .sample .default (.mss 1450 0)).cwnd = 14500 := rfl

end Verif.Props.C143
