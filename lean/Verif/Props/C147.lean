import Verif.Props.C145

/-!
C147. Startup ends for a plateau only after so many rounds in a row at whose ends the bandwidth
had not grown enough over the bandwidth when it last had, and then it does.
-/

namespace Verif.Props.C147

open Verif.Bbr Verif.Props.C142 Verif.Props.C141

/-! ### Specification -/

/-- An operation ends a round. -/
def Ends (F : Floats) (p : Params) (b : Bbr) : BOp → Bool
  | .event now f acked lost _ => (seen F p b now f acked lost).1.endRound
  | _ => false

/-- The maximum of the bandwidths measured, at the end of an event's first part. -/
def peak (F : Floats) (p : Params) (b : Bbr) : BOp → Nat
  | .event now f acked lost _ => max (seen F p b now f acked lost).2.maxBw0 (seen F p b now f acked lost).2.maxBw1
  | _ => 0

/-- The end of a round counts: a packet was acknowledged or lost whose state when sent is known, and the round is not ignored as limited by the application. -/
def counts (F : Floats) (p : Params) (b : Bbr) : BOp → Bool
  | .event now f acked lost _ => (seen F p b now f acked lost).1.state.valid && !(p.ignoreAppLimited && (seen F p b now f acked lost).1.state.appLimited)
  | _ => false

/-- So many ends of rounds that count. -/
def flats (F : Floats) (p : Params) (b : Bbr) : List BOp → Nat
  | [] => 0
  | op :: ops => (if Ends F p b op && counts F p b op then 1 else 0) + flats F p (b.step F p op) ops

/-- At no end of a round the bandwidth has grown enough over `base`. -/
def Flat (F : Floats) (p : Params) (base : Nat) (b : Bbr) : List BOp → Prop
  | [] => True
  | op :: ops => (Ends F p b op = true → peak F p b op < F.mulBw base p.fullBwThreshold) ∧ Flat F p base (b.step F p op) ops

instance decFlat (F : Floats) (p : Params) (base : Nat) : ∀ (b : Bbr) (ops : List BOp), Decidable (Flat F p base b ops)
  | _, [] => inferInstanceAs (Decidable True)
  | b, op :: ops => @instDecidableAnd _ _ _ (decFlat F p base (b.step F p op) ops)

/-- Since the start, or since the last end of a round at which the bandwidth had grown enough over what it was at the one before it, it has not grown enough over `base`,
its value then, for `k` rounds that count. -/
inductive Stale (F : Floats) (p : Params) (b0 : Bbr) : List BOp → Nat → Nat → Prop where
  | start {mid : List BOp} : Flat F p 0 b0 mid → Stale F p b0 mid 0 (flats F p b0 mid)
  | grown {pre mid : List BOp} {op : BOp} {old k : Nat} : Stale F p b0 pre old k → Ends F p (b0.run F p pre) op = true →
      F.mulBw old p.fullBwThreshold ≤ peak F p (b0.run F p pre) op → Flat F p (peak F p (b0.run F p pre) op) (b0.run F p (pre ++ [op])) mid →
      Stale F p b0 (pre ++ [op] ++ mid) (peak F p (b0.run F p pre) op) (flats F p (b0.run F p (pre ++ [op])) mid)

/-! ### Proof -/

theorem flats_append (F : Floats) (p : Params) : ∀ (xs : List BOp) (b : Bbr) (op : BOp),
    flats F p b (xs ++ [op]) = flats F p b xs + if Ends F p (b.run F p xs) op && counts F p (b.run F p xs) op then 1 else 0
  | [], b, op => by
    show (if Ends F p b op && counts F p b op then 1 else 0) + 0 = 0 + if Ends F p b op && counts F p b op then 1 else 0
    omega
  | x :: xs, b, op => by
    have ih := flats_append F p xs (b.step F p x) op
    show _ + flats F p (b.step F p x) (xs ++ [op]) = _ + flats F p (b.step F p x) xs + _
    rw [ih]
    show _ + (_ + (if Ends F p ((b.step F p x).run F p xs) op && counts F p ((b.step F p x).run F p xs) op then 1 else 0)) =
      _ + _ + (if Ends F p ((b.step F p x).run F p xs) op && counts F p ((b.step F p x).run F p xs) op then 1 else 0)
    omega

theorem flat_append (F : Floats) (p : Params) (base : Nat) : ∀ (xs : List BOp) (b : Bbr) (op : BOp), Flat F p base b xs →
    (Ends F p (b.run F p xs) op = true → peak F p (b.run F p xs) op < F.mulBw base p.fullBwThreshold) → Flat F p base b (xs ++ [op])
  | [], _, _, _, h => ⟨h, trivial⟩
  | _ :: xs, _, _, h, k => ⟨h.1, flat_append F p base xs _ _ h.2 k⟩

theorem Stale.more {F : Floats} {p : Params} {b0 : Bbr} {ops : List BOp} {base k : Nat} (h : Stale F p b0 ops base k) (op : BOp)
    (hb : Ends F p (b0.run F p ops) op = true → peak F p (b0.run F p ops) op < F.mulBw base p.fullBwThreshold) :
    Stale F p b0 (ops ++ [op]) base (k + if Ends F p (b0.run F p ops) op && counts F p (b0.run F p ops) op then 1 else 0) := by
  cases h with
  | start h =>
    rw [← flats_append]
    exact .start (flat_append _ _ _ _ _ _ h hb)
  | grown h1 h2 h3 h4 =>
    rename_i pre mid op' old k'
    rw [run_append _ _ _ (pre ++ [op']) mid] at hb ⊢
    rw [← flats_append, List.append_assoc (pre ++ [op'])]
    exact .grown h1 h2 h3 (flat_append _ _ _ _ _ _ h4 hb)

theorem start_grow (F : Floats) (p : Params) (n : Net) (c : CEvent) (acked : List Acked) (lost : List Lost) :
    (n.start F p c acked lost).2.baseline = n.baseline ∧ (n.start F p c acked lost).2.noGrowth = n.noGrowth := by
  have k0 : (n.eventRound acked).2.baseline = n.baseline ∧ (n.eventRound acked).2.noGrowth = n.noGrowth := by
    unfold Net.eventRound
    split
    · unfold Net.ackRound
      split
      · split <;> exact ⟨rfl, rfl⟩
      · exact ⟨rfl, rfl⟩
    · exact ⟨rfl, rfl⟩
  have k1 : ∀ (n : Net) s a, (n.takeBw s a).2.baseline = n.baseline ∧ (n.takeBw s a).2.noGrowth = n.noGrowth := by
    intro n s a
    unfold Net.takeBw
    repeat' split
    all_goals exact ⟨rfl, rfl⟩
  have k2 : ∀ (n : Net) s a, (n.takeRtt s a).baseline = n.baseline ∧ (n.takeRtt s a).noGrowth = n.noGrowth := by
    intro n s a
    unfold Net.takeRtt
    repeat' split
    all_goals exact ⟨rfl, rfl⟩
  have k3 : ∀ (n : Net) a, (n.takeLoss a).baseline = n.baseline ∧ (n.takeLoss a).noGrowth = n.noGrowth := by
    intro n a
    unfold Net.takeLoss
    repeat' split
    all_goals exact ⟨rfl, rfl⟩
  have k4 : ∀ (n : Net) a, (n.takeDelivered a).baseline = n.baseline ∧ (n.takeDelivered a).noGrowth = n.noGrowth := by
    intro n a
    unfold Net.takeDelivered
    repeat' split
    all_goals exact ⟨rfl, rfl⟩
  have k5 : ∀ (n : Net) s a, (n.takeLatest s a).baseline = n.baseline ∧ (n.takeLatest s a).noGrowth = n.noGrowth := by
    intro n s a
    unfold Net.takeLatest
    repeat' split
    all_goals exact ⟨rfl, rfl⟩
  have k6 : ∀ (n : Net) c, (n.adaptLower F p c).baseline = n.baseline ∧ (n.adaptLower F p c).noGrowth = n.noGrowth := by
    intro n c
    unfold Net.adaptLower Net.lowerDefault Net.lowerOther
    dsimp only
    repeat' split
    all_goals exact ⟨rfl, rfl⟩
  have k7 : ∀ (n : Net) s a, (n.endLatest s a).baseline = n.baseline ∧ (n.endLatest s a).noGrowth = n.noGrowth := by
    intro n s a
    unfold Net.endLatest
    repeat' split
    all_goals exact ⟨rfl, rfl⟩
  unfold Net.start
  dsimp only
  refine ⟨?_, ?_⟩
  · rw [(k7 _ _ _).1, (k6 _ _).1, (k5 _ _ _).1, (k4 _ _).1, (k3 _ _).1, (k2 _ _ _).1, (k1 _ _ _).1]; exact k0.1
  · rw [(k7 _ _ _).2, (k6 _ _).2, (k5 _ _ _).2, (k4 _ _).2, (k3 _ _).2, (k2 _ _ _).2, (k1 _ _ _).2]; exact k0.2

theorem finish_grow (n : Net) (c : CEvent) (least : Nat) : (n.finish c least).baseline = n.baseline ∧ (n.finish c least).noGrowth = n.noGrowth := by
  unfold Net.finish
  dsimp only
  by_cases h : c.endRound = true
  · rw [if_pos h]; exact ⟨rfl, rfl⟩
  · rw [if_neg h]; exact ⟨rfl, rfl⟩

/-- What the end of a round does to the two numbers. -/
def grown (F : Floats) (p : Params) (c : CEvent) (n : Net) : Nat × Nat :=
  if c.endRound = false then (n.baseline, n.noGrowth)
  else if max n.maxBw0 n.maxBw1 ≥ F.mulBw n.baseline p.fullBwThreshold then (max n.maxBw0 n.maxBw1, 0)
  else (n.baseline, n.noGrowth + if (c.state.valid && !(p.ignoreAppLimited && c.state.appLimited)) = true then 1 else 0)

theorem growth_grown (F : Floats) (p : Params) (n : Net) (c : CEvent) (he : c.endRound = true) :
    ((n.growth F p c).2.baseline, (n.growth F p c).2.noGrowth) = grown F p c n := by
  unfold Net.growth grown
  have hn : ¬(c.endRound = false) := by rw [he]; decide
  rw [if_neg hn]
  have hm : n.maxBw = max n.maxBw0 n.maxBw1 := rfl
  rw [hm]
  by_cases h : max n.maxBw0 n.maxBw1 ≥ F.mulBw n.baseline p.fullBwThreshold
  · rw [if_pos h, if_pos h]
  · rw [if_neg h, if_neg h]
    cases hv : c.state.valid <;> cases hi : p.ignoreAppLimited <;> cases ha : c.state.appLimited <;> simp

theorem onStartup_grown (F : Floats) (p : Params) (n : Net) (c : CEvent) (x : Option Exit) (cwnd : Nat) (h : (onStartup F p n c x cwnd).1.kind = 0) :
    ((onStartup F p n c x cwnd).2.1.baseline, (onStartup F p n c x cwnd).2.1.noGrowth) = grown F p c n := by
  have kq : ∀ (n : Net) x g, ((startupQueue F p n x cwnd g).1.baseline, (startupQueue F p n x cwnd g).1.noGrowth) = (n.baseline, n.noGrowth) := by
    intro n x g
    unfold startupQueue Net.checkQueue
    dsimp only
    repeat' split
    all_goals rfl
  have kl : ∀ (n : Net) x g, ((startupLoss F p n c x cwnd g).1.baseline, (startupLoss F p n c x cwnd g).1.noGrowth) = (n.baseline, n.noGrowth) := by
    intro n x g
    unfold startupLoss Net.checkLosses
    dsimp only
    repeat' split
    all_goals rfl
  unfold onStartup at h ⊢
  by_cases hf : n.full = true
  · rw [if_pos hf] at h
    cases h
  · rw [if_neg hf] at h ⊢
    by_cases he : c.endRound = false
    · rw [if_pos he]
      unfold grown
      rw [if_pos he]
    · rw [if_neg he] at h ⊢
      dsimp only at h ⊢
      have he' : c.endRound = true := by cases hh : c.endRound <;> simp_all
      have hg : (startupPlateau F p n c x cwnd).2.1 = (n.growth F p c).2 := rfl
      have e1 := growth_grown F p n c he'
      rw [← hg] at e1
      generalize startupPlateau F p n c x cwnd = G at h e1 ⊢
      have e2 := kq G.2.1 G.2.2 G.1
      generalize startupQueue F p G.2.1 G.2.2 cwnd G.1 = Q at h e2 ⊢
      have e3 := kl Q.1 Q.2 G.1
      generalize startupLoss F p Q.1 c Q.2 cwnd G.1 = L at h e3 ⊢
      by_cases hl : L.1.full = true
      · rw [if_pos hl] at h
        cases h
      · rw [if_neg hl]
        exact (e3.trans e2).trans e1

theorem mode_startup {b : Bbr} (h : kind b = .startup) : b.mode = .startup := by
  unfold kind at h
  generalize b.mode = m at h
  cases m <;> first | rfl | cases h

/-- An event in Startup that does not end it. -/
theorem event_grown {F : Floats} {p : Params} {n : Nat} {b : Bbr} (h : Reached F p n b) (now f : Nat) (a : List Acked) (l : List Lost) (least : Nat)
    (hov : Small b now a l) (h0 : kind b = .startup) (h1 : kind (b.onEvent F p now f a l least).2 = .startup) :
    ((b.onEvent F p now f a l least).2.net.baseline, (b.onEvent F p now f a l least).2.net.noGrowth) =
      grown F p (seen F p b now f a l).1 (seen F p b now f a l).2 := by
  obtain ⟨a1, a2, a3⟩ := event_after F p b now f a l least
  obtain ⟨f1, f2⟩ := finish_grow (b.moded F p now f a l).2.net (b.net.start F p (.new now b.cwnd f b.mode.probing) a l).1 least
  rw [a3, f1, f2]
  have hm0 := mode_startup h0
  have hm1 : (b.moded F p now f a l).2.mode = .startup := a1 ▸ mode_startup h1
  have hk := start_keep F p b.net (.new now b.cwnd f b.mode.probing) a l
  obtain ⟨-, -, s3, -, s5⟩ := start_ok F p b.net (.new now b.cwnd f b.mode.probing) a l h.inv.samp h.inv.ok rfl
  have hm : ModeOk p b.net.sampler.acked b.mode (b.net.start F p (.new now b.cwnd f b.mode.probing) a l).2 b.exit :=
    h.inv.mode.congr hk.full hk.pacingGain hk.cwndGain
  have hp : (b.net.start F p (.new now b.cwnd f b.mode.probing) a l).1.priorCwnd = b.cwnd := hk.priorCwnd
  have hl := (startup_loop F p (b.net.start F p (.new now b.cwnd f b.mode.probing) a l).1 maxChanges
    { b with net := (b.net.start F p (.new now b.cwnd f b.mode.probing) a l).2 } b.net.sampler.acked hm0 (rank_lt _) hm s5
    (by rw [hp, s3, hk.sampler]; exact hov)).2
  unfold seen
  have hx : b.exit = none := by rw [hm0] at hm; exact hm.2.1
  unfold Bbr.moded at hm1 ⊢
  generalize b.net.start F p (.new now b.cwnd f b.mode.probing) a l = s at hm1 hl ⊢
  have hz : (onStartup F p s.2 s.1 none b.cwnd).1.kind = 0 := by
    apply Decidable.byContradiction
    intro hne
    exact hl.2 hne (by rw [hm1]; rfl)
  have hd : ({ b with net := s.2 } : Bbr).doEvent F p s.1 =
      { b with mode := (onStartup F p s.2 s.1 none b.cwnd).1, net := (onStartup F p s.2 s.1 none b.cwnd).2.1, exit := (onStartup F p s.2 s.1 none b.cwnd).2.2 } := by
    unfold Bbr.doEvent
    dsimp only
    rw [hm0, hx]
  have hr : ({ b with net := s.2 } : Bbr).loop F p s.1 maxChanges = (false, ({ b with net := s.2 } : Bbr).doEvent F p s.1) := by
    show (if _ then _ else _) = _
    rw [if_pos]
    rw [hd]
    show (onStartup F p s.2 s.1 none b.cwnd).1.kind = b.mode.kind
    rw [hz, hm0]; rfl
  rw [hr, hd]
  exact onStartup_grown F p s.2 s.1 none b.cwnd hz

/-- Anything else in Startup. -/
theorem other_grown {F : Floats} {p : Params} {b : Bbr} (op : BOp) (ho : ∀ now f a l least, op ≠ .event now f a l least) (h0 : kind b = .startup) :
    (b.step F p op).net.baseline = b.net.baseline ∧ (b.step F p op).net.noGrowth = b.net.noGrowth := by
  cases op with
  | event now f a l least => exact absurd rfl (ho _ _ _ _ _)
  | sent now f pn bytes el =>
    have hm := mode_startup h0
    have hq : (b.exitQuiet p now).net = b.net := by
      unfold Bbr.exitQuiet
      split
      · rfl
      · unfold Bbr.wake
        dsimp only
        rw [hm]
    show (Bbr.onSent p b now f pn bytes el).net.baseline = _ ∧ _
    unfold Bbr.step Bbr.onSent Net.onSent
    dsimp only
    split
    · rw [hq]; exact ⟨rfl, rfl⟩
    · exact ⟨rfl, rfl⟩
  | neutered pn => exact ⟨rfl, rfl⟩
  | appLimited f =>
    show (b.onAppLimited f).net.baseline = _ ∧ (b.onAppLimited f).net.noGrowth = _
    unfold Bbr.onAppLimited
    split <;> exact ⟨rfl, rfl⟩
  | mss m f => exact ⟨rfl, rfl⟩
  | limit m => exact ⟨rfl, rfl⟩

theorem step_stale {F : Floats} {p : Params} {b0 : Bbr} {n : Nat} {ops : List BOp} (h : Reached F p n (b0.run F p ops)) (op : BOp) (hf : Fits F p (b0.run F p ops) [op])
    (hs : kind (b0.run F p ops) = .startup → Stale F p b0 ops (b0.run F p ops).net.baseline (b0.run F p ops).net.noGrowth)
    (h1 : kind (b0.run F p (ops ++ [op])) = .startup) :
    Stale F p b0 (ops ++ [op]) (b0.run F p (ops ++ [op])).net.baseline (b0.run F p (ops ++ [op])).net.noGrowth := by
  have hr : b0.run F p (ops ++ [op]) = (b0.run F p ops).step F p op := by rw [run_append]; rfl
  rw [hr] at h1 ⊢
  have h0 : kind (b0.run F p ops) = .startup := by
    apply Decidable.byContradiction
    intro hne
    exact (step_late h op hf).1 hne h1
  have hs0 := hs h0
  by_cases ho : ∃ now f a l least, op = .event now f a l least
  · obtain ⟨now, f, a, l, least, rfl⟩ := ho
    have hg := event_grown h now f a l least hf.1 h0 h1
    obtain ⟨g1, g2⟩ := start_grow F p (b0.run F p ops).net (.new now (b0.run F p ops).cwnd f (b0.run F p ops).mode.probing) a l
    have g1' : (seen F p (b0.run F p ops) now f a l).2.baseline = (b0.run F p ops).net.baseline := g1
    have g2' : (seen F p (b0.run F p ops) now f a l).2.noGrowth = (b0.run F p ops).net.noGrowth := g2
    unfold grown at hg
    rw [g1', g2'] at hg
    by_cases he : (seen F p (b0.run F p ops) now f a l).1.endRound = false
    · rw [if_pos he] at hg
      obtain ⟨q1, q2⟩ := Prod.mk.injEq .. ▸ hg
      have q1' : ((b0.run F p ops).step F p (.event now f a l least)).net.baseline = _ := q1
      have q2' : ((b0.run F p ops).step F p (.event now f a l least)).net.noGrowth = _ := q2
      rw [q1', q2']
      have he' : Ends F p (b0.run F p ops) (.event now f a l least) = false := he
      have := hs0.more (.event now f a l least) (fun hc => by rw [he'] at hc; cases hc)
      rw [he'] at this
      exact this
    · rw [if_neg he] at hg
      have he' : Ends F p (b0.run F p ops) (.event now f a l least) = true := by
        show (seen F p (b0.run F p ops) now f a l).1.endRound = true
        revert he; cases (seen F p (b0.run F p ops) now f a l).1.endRound <;> simp
      split at hg
      · rename_i hge
        obtain ⟨q1, q2⟩ := Prod.mk.injEq .. ▸ hg
        have q1' : ((b0.run F p ops).step F p (.event now f a l least)).net.baseline = peak F p (b0.run F p ops) (.event now f a l least) := q1
        have q2' : ((b0.run F p ops).step F p (.event now f a l least)).net.noGrowth = 0 := q2
        rw [q1', q2']
        have := Stale.grown (mid := []) hs0 he' hge trivial
        rw [List.append_nil] at this
        exact this
      · rename_i hlt
        obtain ⟨q1, q2⟩ := Prod.mk.injEq .. ▸ hg
        have q1' : ((b0.run F p ops).step F p (.event now f a l least)).net.baseline = _ := q1
        have q2' : ((b0.run F p ops).step F p (.event now f a l least)).net.noGrowth = (b0.run F p ops).net.noGrowth +
          if counts F p (b0.run F p ops) (.event now f a l least) = true then 1 else 0 := q2
        rw [q1', q2']
        have := hs0.more (.event now f a l least) (fun _ => Nat.lt_of_not_le hlt)
        rw [he', Bool.true_and] at this
        exact this
  · have ho' : ∀ now f a l least, op ≠ .event now f a l least := fun now f a l least h => ho ⟨now, f, a, l, least, h⟩
    obtain ⟨q1, q2⟩ := other_grown (F := F) (p := p) op ho' h0
    rw [q1, q2]
    have hn : Ends F p (b0.run F p ops) op = false := by
      cases op <;> first | rfl | exact absurd rfl (ho' _ _ _ _ _)
    have := hs0.more op (fun hc => by rw [hn] at hc; cases hc)
    rw [hn] at this
    exact this

theorem run_stale {F : Floats} {p : Params} (initial max mss rtt now factor : Nat) : ∀ (ops pre : List BOp),
    Numbered 0 pre → Fits F p (Bbr.new F p initial max mss rtt now factor) pre →
    (kind ((Bbr.new F p initial max mss rtt now factor).run F p pre) = .startup →
      Stale F p (Bbr.new F p initial max mss rtt now factor) pre ((Bbr.new F p initial max mss rtt now factor).run F p pre).net.baseline
        ((Bbr.new F p initial max mss rtt now factor).run F p pre).net.noGrowth) →
    Numbered (nextPns 0 pre) ops → Fits F p ((Bbr.new F p initial max mss rtt now factor).run F p pre) ops →
    kind ((Bbr.new F p initial max mss rtt now factor).run F p (pre ++ ops)) = .startup →
      Stale F p (Bbr.new F p initial max mss rtt now factor) (pre ++ ops) ((Bbr.new F p initial max mss rtt now factor).run F p (pre ++ ops)).net.baseline
        ((Bbr.new F p initial max mss rtt now factor).run F p (pre ++ ops)).net.noGrowth
  | [], pre, _, _, hs, _, _ => by rw [List.append_nil]; exact hs
  | op :: ops, pre, h1, h2, hs, h3, h4 => by
    have n1 : Numbered (nextPns 0 pre) [op] := by cases op <;> first | exact ⟨h3.1, trivial⟩ | exact trivial
    have n2 : Numbered (nextPn (nextPns 0 pre) op) ops := by cases op <;> first | exact h3.2 | exact h3
    have hf : Fits F p ((Bbr.new F p initial max mss rtt now factor).run F p pre) [op] := ⟨h4.1, trivial⟩
    have hr : Reached F p (nextPns 0 pre) ((Bbr.new F p initial max mss rtt now factor).run F p pre) := ⟨initial, max, mss, rtt, now, factor, pre, h1, h2, rfl, rfl⟩
    have hl : pre ++ op :: ops = (pre ++ [op]) ++ ops := by rw [List.append_assoc]; rfl
    rw [hl]
    refine run_stale initial max mss rtt now factor ops (pre ++ [op]) (numbered_append pre h1 n1) (fits_append F p pre h2 hf) (step_stale hr op hf hs) ?_ ?_
    · rw [nextPns, List.foldl_append]; exact n2
    · rw [run_append]; exact h4.2

/-! ### The property -/

/-- **C147.** An event in Startup ends it for a plateau exactly if a round ends with it, neither limited by the application nor unknown, and together with it at least
`startupRounds` rounds in a row that count have ended without enough growth over the bandwidth when it had last grown enough. -/
theorem plateau {F : Floats} {p : Params} (initial max mss rtt t0 factor : Nat) (ops : List BOp) (now inFlight : Nat) (acked : List Acked) (lost : List Lost) (least : Nat)
    (hn : Numbered 0 ops) (hf : Fits F p (Bbr.new F p initial max mss rtt t0 factor) (ops ++ [.event now inFlight acked lost least])) :
    let b0 := Bbr.new F p initial max mss rtt t0 factor
    let b := b0.run F p ops
    let op := BOp.event now inFlight acked lost least
    kind b = .startup → ∃ base k, Stale F p b0 ops base k ∧
      ((b.step F p op).exit = some ⟨b.cwnd, peak F p b op, .plateau⟩ ↔
        Ends F p b op = true ∧ peak F p b op < F.mulBw base p.fullBwThreshold ∧ (seen F p b now inFlight acked lost).1.state.valid = true ∧
        (seen F p b now inFlight acked lost).1.state.appLimited = false ∧ p.startupRounds ≤ k + 1) ∧
      (∀ x, (b.step F p op).exit = some x → x.reason = .plateau → x = ⟨b.cwnd, peak F p b op, .plateau⟩) := by
  intro b0 b op hs
  have hf1 : Fits F p b0 ops ∧ Fits F p b [op] := by
    have : ∀ (xs : List BOp) (c : Bbr), Fits F p c (xs ++ [op]) → Fits F p c xs ∧ Fits F p (c.run F p xs) [op] := by
      intro xs
      induction xs with
      | nil => exact fun c h => ⟨trivial, h⟩
      | cons x xs ih => exact fun c h => ⟨⟨h.1, (ih _ h.2).1⟩, (ih _ h.2).2⟩
    exact this ops b0 hf
  have hr : Reached F p (nextPns 0 ops) b := ⟨initial, max, mss, rtt, t0, factor, ops, hn, hf1.1, rfl, rfl⟩
  have hst := run_stale (F := F) (p := p) initial max mss rtt t0 factor ops [] trivial trivial
    (fun _ => Stale.start (mid := []) trivial) hn hf1.1 hs
  refine ⟨_, _, hst, ?_, ?_⟩
  all_goals
    obtain ⟨w1, -⟩ := exit_why hr now inFlight acked lost least hf1.2.1 hs
    obtain ⟨g1, g2⟩ := start_grow F p b.net (.new now b.cwnd inFlight b.mode.probing) acked lost
    have g1' : (seen F p b now inFlight acked lost).2.baseline = b.net.baseline := g1
    have g2' : (seen F p b now inFlight acked lost).2.noGrowth = b.net.noGrowth := g2
  · show (b.onEvent F p now inFlight acked lost least).2.exit = _ ↔ _
    rw [w1]
    show _ ↔ (seen F p b now inFlight acked lost).1.endRound = true ∧ _
    unfold reason
    rw [g1', g2']
    have hpk : peak F p b op = Max.max (seen F p b now inFlight acked lost).2.maxBw0 (seen F p b now inFlight acked lost).2.maxBw1 := rfl
    rw [← hpk]
    have hb : (b0.run F p ([] ++ ops)) = b := rfl
    rw [hb]
    cases (seen F p b now inFlight acked lost).1.endRound with
    | false => simp
    | true =>
      rw [if_neg (by decide)]
      by_cases hge : peak F p b op ≥ F.mulBw b.net.baseline p.fullBwThreshold
      · rw [if_pos hge]
        exact ⟨fun h => (by cases h), fun h => absurd h.2.1 (Nat.not_lt.2 hge)⟩
      · rw [if_neg hge]
        by_cases hc : (seen F p b now inFlight acked lost).1.state.valid = true ∧ (seen F p b now inFlight acked lost).1.state.appLimited = false ∧ b.net.noGrowth + 1 ≥ p.startupRounds
        · rw [if_pos hc]
          exact ⟨fun _ => ⟨rfl, Nat.lt_of_not_le hge, hc⟩, fun _ => rfl⟩
        · rw [if_neg hc]
          refine ⟨fun h => ?_, fun h => absurd h.2.2 hc⟩
          exfalso
          revert h
          split
          · intro h; cases h
          · split <;> (intro h; cases h)
  · intro x hx hp
    have hx' : (b.onEvent F p now inFlight acked lost least).2.exit = some x := hx
    rw [w1] at hx'
    cases hre : reason F p (seen F p b now inFlight acked lost).1 (seen F p b now inFlight acked lost).2 with
    | none => rw [hre] at hx'; cases hx'
    | some r =>
      rw [hre] at hx'
      cases hx'
      have : r = .plateau := hp
      rw [this]; rfl

/-! ### Examples -/

/-- Four flights of the same size. -/
def four : List BOp := flights 0 50000000 0 10 4

/-- The controller after so many operations. -/
def at_ (k : Nat) : Bbr := Bbr.sample.run .sample .default (four.take k)

/-- The bandwidth of the first round is that of the others: the third of them ends Startup. -/
example : Numbered 0 four ∧ Fits .sample .default .sample four ∧ kind (at_ 43) = .startup ∧ (at_ 44).exit = some ⟨24000, 1920000, .plateau⟩ ∧
    peak .sample .default (at_ 10) (four.getD 10 (.limit 0)) = 1920000 ∧ flats .sample .default (at_ 11) ((four.take 43).drop 11) = 2 ∧
    Params.default.startupRounds = 3 ∧ Floats.sample.mulBw 1920000 Params.default.fullBwThreshold = 2400000 := by decide +kernel

/-- It had not grown enough for two rounds before. -/
example : Stale .sample .default .sample (four.take 10 ++ [four.getD 10 (.limit 0)] ++ (four.take 43).drop 11) 1920000 2 := by
  have h : Stale .sample .default .sample (four.take 10) 0 (flats .sample .default .sample (four.take 10)) := .start (by decide +kernel)
  have e1 : peak .sample .default (Bbr.sample.run .sample .default (four.take 10)) (four.getD 10 (.limit 0)) = 1920000 := by decide +kernel
  have e2 : flats .sample .default (Bbr.sample.run .sample .default (four.take 10 ++ [four.getD 10 (.limit 0)])) ((four.take 43).drop 11) = 2 := by decide +kernel
  have := Stale.grown (mid := (four.take 43).drop 11) h (op := four.getD 10 (.limit 0)) (by decide +kernel) (by decide +kernel) (by decide +kernel)
  rw [e1, e2] at this
  exact this

end Verif.Props.C147
