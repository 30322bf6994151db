import Verif.Bbr.Sample

/-!
C142. The modes of BBR: Startup, Drain, then ProbeBW and ProbeRTT in turn; each event comes to
rest in a mode whose gains are in force; Startup is left once and for a reason.
-/

namespace Verif.Props.C142

open Verif.Bbr

/-! ### Specification -/

/-- The modes as seen from outside. -/
inductive Kind where
  | startup | drain | probeBw | probeRtt
  deriving DecidableEq

/-- The mode of a controller. -/
def kind (b : Bbr) : Kind :=
  match b.mode with
  | .startup => .startup
  | .drain _ => .drain
  | .probeBw _ => .probeBw
  | .probeRtt _ _ => .probeRtt

/-- The changes of mode. -/
inductive Next : Kind → Kind → Prop where
  | fill : Next .startup .drain
  | empty : Next .drain .probeBw
  | rtt : Next .probeBw .probeRtt
  | back : Next .probeRtt .probeBw

/-- So many changes one after the other. -/
inductive Path : Nat → Kind → Kind → Prop where
  | here (a : Kind) : Path 0 a a
  | more {j : Nat} {a b c : Kind} : Next a b → Path j b c → Path (j + 1) a c

/-- The gains of a controller in its mode: the pacing gain and the window's. In ProbeBW they depend on the phase. -/
def gains (p : Params) (b : Bbr) : Nat × Nat :=
  match b.mode with
  | .startup => (p.startupPacingGain, p.startupCwndGain)
  | .drain _ => (p.drainPacingGain, p.drainCwndGain)
  | .probeBw y =>
    (if y.phase = .up then p.upPacingGain else if y.phase = .down then p.downPacingGain else p.bwPacingGain,
     if y.phase = .up then p.upCwndGain else p.bwCwndGain)
  | .probeRtt _ _ => (p.rttPacingGain, p.rttCwndGain)

/-- The controller has run from its creation. -/
structure Reached (F : Floats) (p : Params) (n : Nat) (b : Bbr) : Prop where
  run : ∃ initial max mss rtt now factor ops, Numbered 0 ops ∧ Fits F p (Bbr.new F p initial max mss rtt now factor) ops ∧
    b = (Bbr.new F p initial max mss rtt now factor).run F p ops ∧ n = nextPns 0 ops

/-- What there is at the end of an event's first part: the network model and the event. -/
def seen (F : Floats) (p : Params) (b : Bbr) (now inFlight : Nat) (acked : List Acked) (lost : List Lost) : CEvent × Net :=
  b.net.start F p (.new now b.cwnd inFlight b.mode.probing) acked lost

/-- Why Startup is left, if it is: only at the end of a round in which the bandwidth has not grown enough. -/
def reason (F : Floats) (p : Params) (c : CEvent) (n : Net) : Option Reason :=
  if c.endRound = false then none
  else if max n.maxBw0 n.maxBw1 ≥ F.mulBw n.baseline p.fullBwThreshold then none
  else if c.state.valid = true ∧ c.state.appLimited = false ∧ n.noGrowth + 1 ≥ p.startupRounds then some .plateau
  else if p.startupQueueRounds > 0 ∧ n.queueing + 1 ≥ p.startupQueueRounds ∧
      n.minInflight ≥ max (n.bdp F (max n.maxBw0 n.maxBw1) queueGain) (n.bdp F (max n.maxBw0 n.maxBw1) one + 2 * 1300) then some .queue
  else if c.state.valid = true ∧ c.state.appLimited = false ∧ n.lossEvents ≥ p.startupLossCount ∧ 0 < c.state.inFlight ∧ 0 < n.bytesLost ∧
      n.bytesLost > F.part c.state.inFlight p.lossThreshold then some .loss
  else none

/-! ### Proof -/

theorem Reached.inv {F : Floats} {p : Params} {n : Nat} {b : Bbr} (h : Reached F p n b) : BInv p n b := by
  obtain ⟨i, m, s, r, t, f, ops, h1, h2, h3, h4⟩ := h
  rw [h3, h4]
  exact run_binv F ops (new_binv F p i m s r t f) h1 h2

theorem kind_of {a b : Bbr} (h : a.mode.kind = b.mode.kind) : kind a = kind b := by
  unfold kind
  cases ha : a.mode <;> cases hb : b.mode <;> rw [ha, hb] at h <;> first | rfl | cases h

/-- The same of modes. -/
def kindM : Mode → Kind
  | .startup => .startup
  | .drain _ => .drain
  | .probeBw _ => .probeBw
  | .probeRtt _ _ => .probeRtt

theorem kind_eq (b : Bbr) : kind b = kindM b.mode := by
  unfold kind kindM
  cases b.mode <;> rfl

theorem kindM_of {a b : Mode} (h : a.kind = b.kind) : kindM a = kindM b := by
  cases a <;> cases b <;> first | rfl | cases h

theorem path_of {j : Nat} {a b : Mode} (h : Reach j a b) : Path j (kindM a) (kindM b) := by
  induction h with
  | stay a b h => rw [kindM_of h]; exact .here _
  | go h _ ih =>
    refine .more ?_ ih
    rcases h with ⟨h1, h2⟩ | ⟨h1, h2⟩ | ⟨h1, h2⟩ | ⟨h1, h2⟩
    · rw [kindM_of (b := .startup) h1, kindM_of (b := .drain (.new 0)) h2]; exact .fill
    · rw [kindM_of (b := .drain (.new 0)) h1, kindM_of (b := .probeBw (.new 0)) h2]; exact .empty
    · rw [kindM_of (b := .probeBw (.new 0)) h1, kindM_of (b := .probeRtt (.new 0) none) h2]; exact .rtt
    · rw [kindM_of (b := .probeRtt (.new 0) none) h1, kindM_of (b := .probeBw (.new 0)) h2]; exact .back

theorem path_late {j : Nat} {a b : Kind} (h : Path j a b) : (a ≠ .startup → b ≠ .startup) ∧ (a = .probeBw ∨ a = .probeRtt → b = .probeBw ∨ b = .probeRtt) := by
  induction h with
  | here a => exact ⟨id, id⟩
  | more h _ ih =>
    cases h with
    | fill => exact ⟨fun h => absurd rfl h, fun h => by rcases h with h | h <;> cases h⟩
    | empty => exact ⟨fun _ => ih.1 (fun h => by cases h), fun h => by rcases h with h | h <;> cases h⟩
    | rtt => exact ⟨fun _ => ih.1 (fun h => by cases h), fun _ => ih.2 (Or.inr rfl)⟩
    | back => exact ⟨fun _ => ih.1 (fun h => by cases h), fun _ => ih.2 (Or.inl rfl)⟩

/-- What the checks of Startup leave alone. -/
structure View (n m : Net) : Prop where
  bw0 : m.maxBw0 = n.maxBw0
  bw1 : m.maxBw1 = n.maxBw1
  rtt : m.minRtt = n.minRtt
  events : m.lossEvents = n.lossEvents
  lost : m.bytesLost = n.bytesLost
  flight : m.minInflight = n.minInflight

theorem View.max {n m : Net} (h : View n m) : m.maxBw = Max.max n.maxBw0 n.maxBw1 := by
  unfold Net.maxBw
  rw [h.bw0, h.bw1]

theorem View.trans {a b c : Net} (h : View a b) (k : View b c) : View a c :=
  ⟨k.1.trans h.1, k.2.trans h.2, k.3.trans h.3, k.4.trans h.4, k.5.trans h.5, k.6.trans h.6⟩

/-- The state of the checks: full and why, or not. -/
def At (n : Net) (x : Option Exit) (cwnd bw : Nat) (r : Option Reason) : Prop := n.full = r.isSome ∧ x = r.map (fun r => ⟨cwnd, bw, r⟩)

theorem plateau_exact (F : Floats) (p : Params) (n : Net) (c : CEvent) (cwnd : Nat) (hf : n.full = false) :
    View n (startupPlateau F p n c none cwnd).2.1 ∧ (startupPlateau F p n c none cwnd).2.1.queueing = n.queueing ∧
    (startupPlateau F p n c none cwnd).1 = decide (max n.maxBw0 n.maxBw1 ≥ F.mulBw n.baseline p.fullBwThreshold) ∧
    At (startupPlateau F p n c none cwnd).2.1 (startupPlateau F p n c none cwnd).2.2 cwnd (max n.maxBw0 n.maxBw1)
      (if max n.maxBw0 n.maxBw1 ≥ F.mulBw n.baseline p.fullBwThreshold then none
       else if c.state.valid = true ∧ c.state.appLimited = false ∧ n.noGrowth + 1 ≥ p.startupRounds then some .plateau else none) := by
  unfold startupPlateau Net.growth
  have hmax : n.maxBw = max n.maxBw0 n.maxBw1 := rfl
  rw [hmax]
  by_cases hg : max n.maxBw0 n.maxBw1 ≥ F.mulBw n.baseline p.fullBwThreshold
  · rw [if_pos hg, if_pos hg]
    dsimp only
    rw [if_neg (by rw [hf]; decide)]
    exact ⟨⟨rfl, rfl, rfl, rfl, rfl, rfl⟩, rfl, (decide_eq_true hg).symm, hf, rfl⟩
  · rw [if_neg hg, if_neg hg]
    by_cases hv : c.state.valid = false
    · rw [if_pos hv, if_neg (fun h => by rw [hv] at h; cases h.1)]
      dsimp only
      rw [if_neg (by rw [hf]; decide)]
      exact ⟨⟨rfl, rfl, rfl, rfl, rfl, rfl⟩, rfl, (decide_eq_false hg).symm, hf, rfl⟩
    · rw [if_neg hv]
      have hv' : c.state.valid = true := by cases h : c.state.valid with | true => rfl | false => exact absurd h hv
      dsimp only
      refine ⟨⟨rfl, rfl, rfl, rfl, rfl, rfl⟩, rfl, (decide_eq_false hg).symm, ?_⟩
      rw [hf, Bool.false_or]
      cases ha : c.state.appLimited with
      | true =>
        simp only [Bool.not_true, Bool.and_false, Bool.false_eq_true, Bool.true_eq_false, false_and, and_false, if_false]
        exact ⟨rfl, rfl⟩
      | false =>
        simp only [Bool.false_eq_true, and_false, if_false, Bool.not_false, Bool.and_true, hv', true_and, decide_eq_true_eq]
        split
        · next hk => exact ⟨by dsimp only [Option.isSome]; exact decide_eq_true hk, rfl⟩
        · next hk => exact ⟨by dsimp only [Option.isSome]; exact decide_eq_false hk, rfl⟩

/-- The queue of Startup. -/
def QueueCond (F : Floats) (p : Params) (n : Net) : Prop :=
  p.startupQueueRounds > 0 ∧ n.queueing + 1 ≥ p.startupQueueRounds ∧
      n.minInflight ≥ max (n.bdp F (max n.maxBw0 n.maxBw1) queueGain) (n.bdp F (max n.maxBw0 n.maxBw1) one + 2 * 1300)

instance (F : Floats) (p : Params) (n : Net) : Decidable (QueueCond F p n) := by unfold QueueCond; infer_instance

/-- The losses of Startup. -/
def LossCond (F : Floats) (p : Params) (c : CEvent) (n : Net) : Prop :=
  c.state.valid = true ∧ c.state.appLimited = false ∧ n.lossEvents ≥ p.startupLossCount ∧ 0 < c.state.inFlight ∧ 0 < n.bytesLost ∧
      n.bytesLost > F.part c.state.inFlight p.lossThreshold

instance (F : Floats) (p : Params) (c : CEvent) (n : Net) : Decidable (LossCond F p c n) := by unfold LossCond; infer_instance

theorem queue_exact (F : Floats) (p : Params) (n : Net) (x : Option Exit) (cwnd : Nat) (r : Option Reason) (h : At n x cwnd (max n.maxBw0 n.maxBw1) r) :
    View n (startupQueue F p n x cwnd false).1 ∧
    At (startupQueue F p n x cwnd false).1 (startupQueue F p n x cwnd false).2 cwnd (max n.maxBw0 n.maxBw1)
      (r.or (if QueueCond F p n then some .queue else none)) := by
  unfold startupQueue
  obtain ⟨h1, h2⟩ := h
  by_cases hq : p.startupQueueRounds > 0
  · rw [if_pos ⟨hq, rfl⟩]
    dsimp only
    unfold Net.checkQueue Net.bdp0
    have hmax : n.maxBw = max n.maxBw0 n.maxBw1 := rfl
    rw [hmax]
    by_cases hm : n.minInflight < max (n.bdp F (max n.maxBw0 n.maxBw1) queueGain) (n.bdp F (max n.maxBw0 n.maxBw1) one + queueExtra)
    · rw [if_pos hm]
      have hc : ¬ QueueCond F p n := fun h => absurd h.2.2 (by simp only [queueExtra, defaultMss] at hm; omega)
      refine ⟨⟨rfl, rfl, rfl, rfl, rfl, rfl⟩, ?_⟩
      cases r with
      | some r => exact ⟨h1, by dsimp only; rw [h2]; split <;> rfl⟩
      | none => rw [if_neg hc]; exact ⟨h1, by dsimp only; rw [h1, h2]; rfl⟩
    · rw [if_neg hm]
      refine ⟨⟨rfl, rfl, rfl, rfl, rfl, rfl⟩, ?_⟩
      cases r with
      | some r => exact ⟨by dsimp only; rw [h1]; rfl, by dsimp only; rw [h2]; split <;> rfl⟩
      | none =>
        have hc : QueueCond F p n ↔ n.queueing + 1 ≥ p.startupQueueRounds :=
          ⟨fun h => h.2.1, fun h => ⟨hq, h, by simp only [queueExtra, defaultMss] at hm; omega⟩⟩
        dsimp only
        rw [h1, h2]
        by_cases hk : n.queueing + 1 ≥ p.startupQueueRounds
        · rw [if_pos (hc.2 hk), decide_eq_true hk]
          exact ⟨rfl, rfl⟩
        · rw [if_neg (fun h => hk (hc.1 h)), decide_eq_false hk]
          exact ⟨rfl, rfl⟩
  · rw [if_neg (fun h => hq h.1)]
    refine ⟨⟨rfl, rfl, rfl, rfl, rfl, rfl⟩, ?_⟩
    cases r with
    | some r => exact ⟨h1, h2⟩
    | none => rw [if_neg (fun h => hq h.1)]; exact ⟨h1, h2⟩

theorem loss_exact (F : Floats) (p : Params) (n : Net) (c : CEvent) (x : Option Exit) (cwnd : Nat) (r : Option Reason) (h : At n x cwnd (max n.maxBw0 n.maxBw1) r) :
    At (startupLoss F p n c x cwnd false).1 (startupLoss F p n c x cwnd false).2 cwnd (max n.maxBw0 n.maxBw1)
      (r.or (if LossCond F p c n then some .loss else none)) := by
  unfold startupLoss
  obtain ⟨h1, h2⟩ := h
  cases r with
  | some r =>
    rw [if_neg (fun h => by rw [h1] at h; cases h.2.2)]
    exact ⟨h1, h2⟩
  | none =>
    cases ha : c.state.appLimited with
    | true =>
      rw [if_neg (fun h => by cases h.1)]
      rw [if_neg (fun h => by have := h.2.1; rw [ha] at this; cases this)]
      exact ⟨h1, h2⟩
    | false =>
      rw [if_pos ⟨rfl, rfl, h1⟩]
      dsimp only
      have hc : n.tooHigh F p c p.startupLossCount = true ↔ LossCond F p c n := by
        unfold Net.tooHigh LossCond
        simp only [Bool.and_eq_true, decide_eq_true_eq, ha, true_and, and_assoc, ge_iff_le, gt_iff_lt]
      unfold Net.checkLosses
      by_cases ht : n.tooHigh F p c p.startupLossCount = true
      · rw [if_pos ht, if_pos (hc.1 ht), h2]
        exact ⟨rfl, rfl⟩
      · rw [if_neg ht, if_neg (fun h => ht (hc.2 h)), h1]
        exact ⟨h1, h2⟩

/-- Startup on an event. -/
theorem startup_exact (F : Floats) (p : Params) (n : Net) (c : CEvent) (cwnd : Nat) (hf : n.full = false) :
    (onStartup F p n c none cwnd).2.2 = (reason F p c n).map (fun r => ⟨cwnd, max n.maxBw0 n.maxBw1, r⟩) ∧
    ((onStartup F p n c none cwnd).1.kind ≠ 0 ↔ (reason F p c n).isSome = true) := by
  unfold onStartup reason
  rw [if_neg (by rw [hf]; decide)]
  by_cases he : c.endRound = false
  · rw [if_pos he, if_pos he]
    exact ⟨rfl, by constructor <;> (intro h; first | cases h | exact absurd rfl h)⟩
  rw [if_neg he, if_neg he]
  obtain ⟨a1, a2, a3, a4⟩ := plateau_exact F p n c cwnd hf
  generalize startupPlateau F p n c none cwnd = g at a1 a2 a3 a4
  have fin : ∀ (l : Net × Option Exit) (r : Option Reason), At l.1 l.2 cwnd (max n.maxBw0 n.maxBw1) r →
      (if l.1.full = true then ((intoDrain l.1 c.now).1, (intoDrain l.1 c.now).2, l.2) else (Mode.startup, l.1, l.2)).2.2 =
        r.map (fun r => ⟨cwnd, max n.maxBw0 n.maxBw1, r⟩) ∧
      ((if l.1.full = true then ((intoDrain l.1 c.now).1, (intoDrain l.1 c.now).2, l.2) else (Mode.startup, l.1, l.2)).1.kind ≠ 0 ↔ r.isSome = true) := by
    intro l r hl
    rw [hl.1]
    cases r with
    | none => exact ⟨hl.2, by constructor <;> (intro h; first | cases h | exact absurd rfl h)⟩
    | some r => exact ⟨hl.2, fun _ => rfl, fun _ h => by cases h⟩
  by_cases hg : max n.maxBw0 n.maxBw1 ≥ F.mulBw n.baseline p.fullBwThreshold
  · rw [if_pos hg] at a4 ⊢
    rw [decide_eq_true hg] at a3
    dsimp only
    rw [a3]
    have e1 : startupQueue F p g.2.1 g.2.2 cwnd true = (g.2.1, g.2.2) := by
      unfold startupQueue
      rw [if_neg (by intro h; cases h.2)]
    have e2 : startupLoss F p g.2.1 c g.2.2 cwnd true = (g.2.1, g.2.2) := by
      unfold startupLoss
      rw [if_neg (by intro h; cases h.2.1)]
    rw [e1, e2]
    exact fin (g.2.1, g.2.2) none a4
  · rw [if_neg hg] at a4 ⊢
    rw [decide_eq_false hg] at a3
    dsimp only
    rw [a3]
    rw [← a1.max] at a4
    obtain ⟨b1, b2⟩ := queue_exact F p g.2.1 g.2.2 cwnd _ a4
    generalize startupQueue F p g.2.1 g.2.2 cwnd false = q at b1 b2
    have hm : max g.2.1.maxBw0 g.2.1.maxBw1 = max q.1.maxBw0 q.1.maxBw1 := b1.max.symm
    rw [hm] at b2
    have d := loss_exact F p q.1 c q.2 cwnd _ b2
    rw [← hm] at d
    have hm2 : max g.2.1.maxBw0 g.2.1.maxBw1 = max n.maxBw0 n.maxBw1 := a1.max
    rw [hm2] at d
    have r1 : QueueCond F p g.2.1 ↔ QueueCond F p n := by
      unfold QueueCond Net.bdp
      rw [hm2, a2, a1.flight, a1.rtt]
    have r2 : LossCond F p c q.1 ↔ LossCond F p c n := by
      unfold LossCond
      rw [(a1.trans b1).events, (a1.trans b1).lost]
    have key := fin _ _ d
    refine key.imp (fun h => h.trans ?_) (fun h => h.trans ?_)
    all_goals
      by_cases hp : c.state.valid = true ∧ c.state.appLimited = false ∧ n.noGrowth + 1 ≥ p.startupRounds
      · rw [if_pos hp, if_pos hp, Option.some_or, Option.some_or]
      · rw [if_neg hp, if_neg hp]
        rw [Option.none_or]
        by_cases hq : QueueCond F p n
        · rw [if_pos (r1.2 hq)]
          unfold QueueCond at hq
          rw [if_pos hq, Option.some_or]
        · rw [if_neg (fun h => hq (r1.1 h))]
          unfold QueueCond at hq
          rw [if_neg hq]
          rw [Option.none_or]
          by_cases hl : LossCond F p c n
          · rw [if_pos (r2.2 hl)]
            unfold LossCond at hl
            rw [if_pos hl]
          · rw [if_neg (fun h => hl (r2.1 h))]
            unfold LossCond at hl
            rw [if_neg hl]

/-! ### Theorems -/

/-- The numbers of an event fit: the window with all bytes acknowledged so far. -/
def Small (b : Bbr) (now : Nat) (acked : List Acked) (lost : List Lost) : Prop := b.cwnd + (b.net.reported now acked lost).2.acked ≤ u64Max

/-- Nothing panics. -/
theorem no_panic {F : Floats} {p : Params} {n : Nat} {b : Bbr} (h : Reached F p n b) : b.net.bad = false ∧ b.net.sampler.failed = false :=
  ⟨h.inv.ok, h.inv.samp.good⟩

/-- An event changes the mode at most three times, along the changes there are, and comes to rest. -/
theorem modes {F : Floats} {p : Params} {n : Nat} {b : Bbr} (h : Reached F p n b) (now inFlight : Nat) (acked : List Acked) (lost : List Lost) (least : Nat)
    (hov : Small b now acked lost) :
    (b.moded F p now inFlight acked lost).1 = false ∧ ∃ j, j ≤ 3 ∧ Path j (kind b) (kind (b.onEvent F p now inFlight acked lost least).2) := by
  obtain ⟨-, he⟩ := event_binv h.inv F now inFlight acked lost least hov
  obtain ⟨j, j1, j2⟩ := he.reach
  refine ⟨he.rest, j, j1, ?_⟩
  rw [kind_eq, kind_eq, (event_after F p b now inFlight acked lost least).1]
  exact path_of j2

theorem exitQuiet_kind {p : Params} {n : Nat} {b : Bbr} (h : BInv p n b) (now : Nat) :
    kind (b.exitQuiet p now) = kind b ∨ (kind b = .probeRtt ∧ kind (b.exitQuiet p now) = .probeBw) := by
  unfold Bbr.exitQuiet
  split
  · exact Or.inl rfl
  · unfold Bbr.wake
    dsimp only
    split
    · exact Or.inl rfl
    · exact Or.inl rfl
    · exact Or.inl rfl
    · next y he => exact Or.inr ⟨by rw [kind_eq, he]; rfl, rfl⟩
    · next y t he =>
      split
      · exact Or.inr ⟨by rw [kind_eq, he]; rfl, rfl⟩
      · exact Or.inl rfl

/-- Besides events only a packet sent after quiescence changes the mode, from ProbeRTT to ProbeBW. -/
theorem modes_else {F : Floats} {p : Params} {n : Nat} {b : Bbr} (h : Reached F p n b) (op : BOp) (he : ∀ now f a l least, op ≠ .event now f a l least) :
    kind (b.step F p op) = kind b ∨ ((∃ now pn bytes el, op = .sent now 0 pn bytes el) ∧ kind b = .probeRtt ∧ kind (b.step F p op) = .probeBw) := by
  cases op with
  | event now f a l least => exact absurd rfl (he _ _ _ _ _)
  | sent now f pn bytes el =>
    by_cases hf : f = 0
    · subst hf
      exact (exitQuiet_kind h.inv now).imp id (fun hk => ⟨⟨now, pn, bytes, el, rfl⟩, hk⟩)
    · refine Or.inl ?_
      show kind (Bbr.onSent p b now f pn bytes el) = kind b
      unfold Bbr.onSent
      rw [if_neg hf]
      rfl
  | neutered pn => exact Or.inl rfl
  | appLimited f =>
    refine Or.inl ?_
    show kind (b.onAppLimited f) = kind b
    unfold Bbr.onAppLimited
    split <;> rfl
  | mss m f => exact Or.inl rfl
  | limit m => exact Or.inl rfl

theorem run_append (F : Floats) (p : Params) (b : Bbr) (xs ys : List BOp) : b.run F p (xs ++ ys) = (b.run F p xs).run F p ys := List.foldl_append ..

theorem numbered_append : ∀ (xs : List BOp) {n : Nat} {ys : List BOp}, Numbered n xs → Numbered (nextPns n xs) ys → Numbered n (xs ++ ys)
  | [], _, _, _, h => h
  | op :: xs, n, ys, h, k => by
    cases op with
    | sent now f pn bytes el => exact ⟨h.1, numbered_append xs h.2 k⟩
    | event now f a l least => exact numbered_append xs (n := n) h k
    | neutered pn => exact numbered_append xs (n := n) h k
    | appLimited f => exact numbered_append xs (n := n) h k
    | mss m f => exact numbered_append xs (n := n) h k
    | limit m => exact numbered_append xs (n := n) h k

theorem fits_append (F : Floats) (p : Params) : ∀ (xs : List BOp) {b : Bbr} {ys : List BOp}, Fits F p b xs → Fits F p (b.run F p xs) ys → Fits F p b (xs ++ ys)
  | [], _, _, _, h => h
  | _ :: xs, _, _, h, k => ⟨h.1, fits_append F p xs h.2 k⟩

theorem Reached.step {F : Floats} {p : Params} {n : Nat} {b : Bbr} (h : Reached F p n b) (op : BOp) (hn : Numbered n [op]) (hf : Fits F p b [op]) :
    Reached F p (nextPn n op) (b.step F p op) := by
  obtain ⟨i, m, s, r, t, f, ops, h1, h2, h3, h4⟩ := h
  refine ⟨i, m, s, r, t, f, ops ++ [op], numbered_append ops h1 (by rw [← h4]; exact hn), fits_append F p ops h2 (by rw [← h3]; exact hf), ?_, ?_⟩
  · rw [run_append, ← h3]; rfl
  · rw [nextPns, List.foldl_append, h4]; rfl

theorem step_late {F : Floats} {p : Params} {n : Nat} {b : Bbr} (h : Reached F p n b) (op : BOp) (hf : Fits F p b [op]) :
    (kind b ≠ .startup → kind (b.step F p op) ≠ .startup) ∧
    (kind b = .probeBw ∨ kind b = .probeRtt → kind (b.step F p op) = .probeBw ∨ kind (b.step F p op) = .probeRtt) := by
  by_cases he : ∃ now f a l least, op = .event now f a l least
  · obtain ⟨now, f, a, l, least, rfl⟩ := he
    obtain ⟨-, j, -, hj⟩ := modes h now f a l least hf.1
    exact path_late hj
  · rcases modes_else h op (fun now f a l least hx => he ⟨now, f, a, l, least, hx⟩) with hk | ⟨-, hk1, hk2⟩
    · rw [hk]; exact ⟨id, id⟩
    · rw [hk1, hk2]; exact ⟨fun _ h => (by cases h), fun _ => Or.inl rfl⟩

/-- Startup is not come back to, nor Drain after it. -/
theorem late {F : Floats} {p : Params} : ∀ (ops : List BOp) {n : Nat} {b : Bbr} (_ : Reached F p n b) (_ : Numbered n ops) (_ : Fits F p b ops),
    (kind b ≠ .startup → kind (b.run F p ops) ≠ .startup) ∧
    (kind b = .probeBw ∨ kind b = .probeRtt → kind (b.run F p ops) = .probeBw ∨ kind (b.run F p ops) = .probeRtt)
  | [], _, _, _, _, _ => ⟨id, id⟩
  | op :: ops, n, b, h, hn, hf => by
    have h1 : Numbered n [op] := by cases op <;> first | exact ⟨hn.1, trivial⟩ | exact trivial
    have h2 : Numbered (nextPn n op) ops := by cases op <;> first | exact hn.2 | exact hn
    obtain ⟨a1, a2⟩ := step_late h op ⟨hf.1, trivial⟩
    obtain ⟨b1, b2⟩ := late ops (h.step op h1 ⟨hf.1, trivial⟩) h2 hf.2
    exact ⟨fun hk => b1 (a1 hk), fun hk => b2 (a2 hk)⟩

/-- After an event the gains in force are those of the mode. -/
theorem in_force {F : Floats} {p : Params} {n : Nat} {b : Bbr} (h : Reached F p n b) (now inFlight : Nat) (acked : List Acked) (lost : List Lost) (least : Nat)
    (hov : Small b now acked lost) :
    ((b.onEvent F p now inFlight acked lost least).2.net.pacingGain, (b.onEvent F p now inFlight acked lost least).2.net.cwndGain) =
      gains p (b.onEvent F p now inFlight acked lost least).2 := by
  obtain ⟨hi, he⟩ := event_binv h.inv F now inFlight acked lost least hov
  obtain ⟨a1, a2, a3⟩ := event_after F p b now inFlight acked lost least
  obtain ⟨f1, f2, f3, f4, f5, f6, -⟩ := finish_keep (b.moded F p now inFlight acked lost).2.net (b.net.start F p (.new now b.cwnd inFlight b.mode.probing) acked lost).1 least
  have hm := he.mode
  unfold gains
  rw [a1, a3, f5, f6, he.gains]
  generalize (b.moded F p now inFlight acked lost).2.mode = m at hm
  cases m with
  | startup => rfl
  | drain y => rfl
  | probeBw y =>
    unfold gainsOf Phase.pacingGain Phase.cwndGain
    dsimp only
    cases y.phase <;> rfl
  | probeRtt y e => rfl

/-- What the modes leave of the rate. -/
theorem rate_eq (F : Floats) (p : Params) (b : Bbr) (now inFlight : Nat) (acked : List Acked) (lost : List Lost) (least : Nat) :
    (b.onEvent F p now inFlight acked lost least).2.pacingRate =
      ((b.moded F p now inFlight acked lost).2.updateRate F p (seen F p b now inFlight acked lost).1.acked).pacingRate := rfl

theorem finish_estimate (n : Net) (c : CEvent) (least : Nat) : (n.finish c least).estimate = n.estimate ∧ (n.finish c least).minRtt = n.minRtt := by
  unfold Net.finish
  dsimp only
  by_cases h : c.endRound = true
  · rw [if_pos h]; exact ⟨rfl, rfl⟩
  · rw [if_neg h]; exact ⟨rfl, rfl⟩

/-- The pacing rate after an event: unchanged without an estimate; from the window at the first acknowledgement; then the
estimated bandwidth times the gain of the mode, which in Startup is not lowered unless bandwidth is lowered on loss. -/
theorem pace {F : Floats} {p : Params} {n : Nat} {b : Bbr} (h : Reached F p n b) (now inFlight : Nat) (acked : List Acked) (lost : List Lost) (least : Nat)
    (hov : Small b now acked lost) :
    let b' := (b.onEvent F p now inFlight acked lost least).2
    (b'.net.estimate = 0 → b'.pacingRate = b.pacingRate) ∧
    (b'.net.estimate ≠ 0 → b.net.sampler.acked = 0 →
      b'.pacingRate = match p.initialRate with | none => rate b.cwnd b'.net.minRtt | some r => min (rate b.cwnd b'.net.minRtt) (r * 8)) ∧
    (b'.net.estimate ≠ 0 → b.net.sampler.acked ≠ 0 → kind b' ≠ .startup → b'.pacingRate = F.mulBw b'.net.estimate (gains p b').1) ∧
    (b'.net.estimate ≠ 0 → b.net.sampler.acked ≠ 0 → kind b' = .startup → p.loMode = .default →
      b'.pacingRate = max b.pacingRate (F.mulBw b'.net.estimate p.startupPacingGain)) := by
  dsimp only
  obtain ⟨hi, he⟩ := event_binv h.inv F now inFlight acked lost least hov
  obtain ⟨a1, a2, a3⟩ := event_after F p b now inFlight acked lost least
  obtain ⟨e1, e2⟩ := finish_estimate (b.moded F p now inFlight acked lost).2.net (b.net.start F p (.new now b.cwnd inFlight b.mode.probing) acked lost).1 least
  have hfirst : (b.moded F p now inFlight acked lost).2.net.sampler.acked = (seen F p b now inFlight acked lost).1.acked ↔ b.net.sampler.acked = 0 := by
    obtain ⟨-, -, h3, -⟩ := start_ok F p b.net (.new now b.cwnd inFlight b.mode.probing) acked lost h.inv.samp h.inv.ok rfl
    rw [he.same.sampler]
    unfold seen
    omega
  have hg := in_force h now inFlight acked lost least hov
  have hk := he.keep
  have hm := he.mode
  have hpg : (b.moded F p now inFlight acked lost).2.net.pacingGain = (gains p (b.onEvent F p now inFlight acked lost least).2).1 := by
    rw [← hg, a3]
    exact ((finish_keep _ _ least).2.2.2.2.1).symm
  rw [rate_eq, a3, e1, e2]
  unfold Bbr.updateRate
  dsimp only
  refine ⟨?_, ?_, ?_, ?_⟩
  · intro h0
    rw [if_pos h0, hk.2.2.1]
  · intro h0 h1
    rw [if_neg h0, if_pos (hfirst.2 h1)]
    unfold firstRate
    dsimp only
    rw [hk.1]
    cases p.initialRate <;> rfl
  · intro h0 h1 h2
    rw [if_neg h0, if_neg (fun hx => h1 (hfirst.1 hx))]
    have hfull : (b.moded F p now inFlight acked lost).2.net.full = true := by
      rw [kind_eq, a1] at h2
      generalize (b.moded F p now inFlight acked lost).2.mode = m at hm h2
      cases m with
      | startup => exact absurd rfl h2
      | drain y => exact hm.1
      | probeBw y => exact hm.1
      | probeRtt y e => exact hm.1
    rw [if_pos hfull, hpg]
  · intro h0 h1 h2 h4
    rw [if_neg h0, if_neg (fun hx => h1 (hfirst.1 hx))]
    have hst : (b.moded F p now inFlight acked lost).2.net.full = false ∧ (b.moded F p now inFlight acked lost).2.net.pacingGain = p.startupPacingGain := by
      rw [kind_eq, a1] at h2
      generalize (b.moded F p now inFlight acked lost).2.mode = m at hm h2
      cases m with
      | startup => exact ⟨hm.1, hm.2.2.1⟩
      | drain y => cases h2
      | probeBw y => cases h2
      | probeRtt y e => cases h2
    rw [if_neg (by rw [hst.1]; decide), if_neg (fun hx => by rw [hst.2] at hx; exact absurd hx.2 (Nat.lt_irrefl _)), if_neg (fun hx => hx.1 h4), hst.2, hk.2.2.1]

/-- Startup has been left exactly if its exit is recorded. -/
theorem exit_iff {F : Floats} {p : Params} {n : Nat} {b : Bbr} (h : Reached F p n b) : b.exit.isSome = true ↔ kind b ≠ .startup := by
  have hm := h.inv.mode
  unfold kind
  generalize b.mode = m at hm
  cases m with
  | startup => rw [hm.2.1]; exact ⟨fun h => (by cases h), fun h => absurd rfl h⟩
  | drain y => exact ⟨fun _ h => (by cases h), fun _ => hm.2.1⟩
  | probeBw y => exact ⟨fun _ h => (by cases h), fun _ => hm.2.1⟩
  | probeRtt y e => exact ⟨fun _ h => (by cases h), fun _ => hm.2.1⟩

theorem startup_loop (F : Floats) (p : Params) (c : CEvent) (k : Nat) (b : Bbr) (A : Nat) (h0 : b.mode = .startup) (hr : rank b.mode < k) (h : ModeOk p A b.mode b.net b.exit)
    (hst : c.state.valid = true → c.state.acked ≤ b.net.sampler.acked) (hov : c.priorCwnd + (A + c.acked) ≤ u64Max) :
    (b.loop F p c k).2.exit = (onStartup F p b.net c none b.cwnd).2.2 ∧ ((b.loop F p c k).2.mode.kind ≠ 0 ↔ (onStartup F p b.net c none b.cwnd).1.kind ≠ 0) := by
  have hx : b.exit = none := by rw [h0] at h; exact h.2.1
  have hd : (b.doEvent F p c).mode = (onStartup F p b.net c none b.cwnd).1 ∧ (b.doEvent F p c).exit = (onStartup F p b.net c none b.cwnd).2.2 := by
    unfold Bbr.doEvent
    rw [h0, hx]
    exact ⟨rfl, rfl⟩
  obtain ⟨g1, g2, g3, g4⟩ := doEvent_called F p b c h hst hov
  cases k with
  | zero => exact absurd hr (Nat.not_lt_zero _)
  | succ k =>
    unfold Bbr.loop
    rcases g3 with ⟨d1, d2, d3⟩ | ⟨d1, d2, d3, d4⟩
    · rw [if_pos d1]
      exact ⟨hd.2, by rw [hd.1]⟩
    · rw [if_neg d2]
      obtain ⟨-, -, -, -, -, ⟨j, -, e6⟩, e7⟩ := loop_rest F p c k (b.doEvent F p c) (by omega) d3 (by rw [g1.sampler]; exact hst) hov
      have hne : (b.doEvent F p c).mode.kind ≠ 0 := by
        rcases d1 with d | d | d | d <;> (rw [d.2]; decide)
      refine ⟨(e7 hne).trans hd.2, ?_⟩
      rw [← hd.1]
      refine ⟨fun _ => hne, fun _ => ?_⟩
      have hp := (path_late (path_of e6)).1
      intro h5
      refine hp ?_ (kindM_of (b := .startup) h5)
      intro h6
      apply hne
      generalize (b.doEvent F p c).mode = m at h6
      cases m with
      | startup => rfl
      | drain y => cases h6
      | probeBw y => cases h6
      | probeRtt y e => cases h6

/-- An event in Startup: it is left exactly for a reason, which is recorded with the window and the bandwidth. -/
theorem exit_why {F : Floats} {p : Params} {n : Nat} {b : Bbr} (h : Reached F p n b) (now inFlight : Nat) (acked : List Acked) (lost : List Lost) (least : Nat)
    (hov : Small b now acked lost) (hs : kind b = .startup) :
    let s := seen F p b now inFlight acked lost
    let b' := (b.onEvent F p now inFlight acked lost least).2
    b'.exit = (reason F p s.1 s.2).map (fun r => ⟨b.cwnd, max s.2.maxBw0 s.2.maxBw1, r⟩) ∧ (kind b' ≠ .startup ↔ (reason F p s.1 s.2).isSome = true) := by
  dsimp only
  have hk := start_keep F p b.net (.new now b.cwnd inFlight b.mode.probing) acked lost
  obtain ⟨h1, h2, h3, h4, h5⟩ := start_ok F p b.net (.new now b.cwnd inFlight b.mode.probing) acked lost h.inv.samp h.inv.ok rfl
  have hm : ModeOk p b.net.sampler.acked b.mode (b.net.start F p (.new now b.cwnd inFlight b.mode.probing) acked lost).2 b.exit :=
    h.inv.mode.congr hk.full hk.pacingGain hk.cwndGain
  have h0 : b.mode = .startup := by
    unfold kind at hs
    generalize b.mode = m at hs
    cases m with
    | startup => rfl
    | drain y => cases hs
    | probeBw y => cases hs
    | probeRtt y e => cases hs
  have hp : (b.net.start F p (.new now b.cwnd inFlight b.mode.probing) acked lost).1.priorCwnd = b.cwnd := hk.priorCwnd
  obtain ⟨l1, l2⟩ := startup_loop F p (b.net.start F p (.new now b.cwnd inFlight b.mode.probing) acked lost).1 maxChanges
    { b with net := (b.net.start F p (.new now b.cwnd inFlight b.mode.probing) acked lost).2 } b.net.sampler.acked h0 (rank_lt _) hm h5
    (by rw [hp, h3, hk.sampler]; exact hov)
  obtain ⟨a1, a2, a3⟩ := event_after F p b now inFlight acked lost least
  have hf : (seen F p b now inFlight acked lost).2.full = false := by
    rw [h0] at hm
    unfold seen
    rw [h0]
    exact hm.1
  obtain ⟨s1, s2⟩ := startup_exact F p (seen F p b now inFlight acked lost).2 (seen F p b now inFlight acked lost).1 b.cwnd hf
  refine ⟨?_, ?_⟩
  · rw [a2, ← s1]; exact l1
  · rw [← s2, kind_eq, a1]
    refine Iff.trans ?_ l2
    show kindM (b.moded F p now inFlight acked lost).2.mode ≠ .startup ↔ (b.moded F p now inFlight acked lost).2.mode.kind ≠ 0
    generalize (b.moded F p now inFlight acked lost).2.mode = m
    cases m with
    | startup => exact ⟨fun h => absurd rfl h, fun h => absurd rfl h⟩
    | drain y => exact ⟨fun _ h => (by cases h), fun _ h => by cases h⟩
    | probeBw y => exact ⟨fun _ h => (by cases h), fun _ h => by cases h⟩
    | probeRtt y e => exact ⟨fun _ h => (by cases h), fun _ h => by cases h⟩

/-- The exit recorded stays. -/
theorem exit_kept {F : Floats} {p : Params} {n : Nat} {b : Bbr} (h : Reached F p n b) (op : BOp) (hf : Fits F p b [op]) (x : Exit) (hx : b.exit = some x) :
    (b.step F p op).exit = some x := by
  have hk : b.mode.kind ≠ 0 := by
    intro h0
    have := (exit_iff h).1 (by rw [hx]; rfl)
    exact this (by rw [kind_eq]; exact kindM_of (b := .startup) h0)
  cases op with
  | event now f a l least =>
    obtain ⟨hi, he⟩ := event_binv h.inv F now f a l least hf.1
    show (b.onEvent F p now f a l least).2.exit = some x
    rw [(event_after F p b now f a l least).2.1, he.exit hk, hx]
  | sent now f pn bytes el =>
    show (Bbr.onSent p b now f pn bytes el).exit = some x
    unfold Bbr.onSent
    dsimp only
    split
    · unfold Bbr.exitQuiet
      split
      · exact hx
      · unfold Bbr.wake
        dsimp only
        split
        · exact hx
        · exact hx
        · exact hx
        · exact hx
        · split <;> exact hx
    · exact hx
  | neutered pn => exact hx
  | appLimited f =>
    show (b.onAppLimited f).exit = some x
    unfold Bbr.onAppLimited
    split <;> exact hx
  | mss m f => exact hx
  | limit m => exact hx

/-! ### Examples -/

/-- A controller after operations on the sample path. -/
theorem sample_reached (ops : List BOp) (h1 : Numbered 0 ops) (h2 : Fits .sample .default .sample ops) :
    Reached .sample .default (nextPns 0 ops) (Bbr.sample.run .sample .default ops) :=
  ⟨⟨10, 10000, 1200, 50000000, 0, 2885, ops, h1, h2, rfl, rfl⟩⟩

/-- Four flights of the same size: a plateau, and on to ProbeBW at the estimated bandwidth in the same event. -/
example : kind (Bbr.sample.run .sample .default (flights 0 50000000 0 10 3)) = .startup ∧
    kind (Bbr.sample.run .sample .default (flights 0 50000000 0 10 4)) = .probeBw ∧
    (Bbr.sample.run .sample .default (flights 0 50000000 0 10 4)).exit = some ⟨24000, 1920000, .plateau⟩ ∧
    (Bbr.sample.run .sample .default (flights 0 50000000 0 10 4)).pacingRate = 1920000 ∧
    Numbered 0 (flights 0 50000000 0 10 4) ∧ Fits .sample .default .sample (flights 0 50000000 0 10 4) := by decide +kernel

/-- The last acknowledgement comes late: three changes in one event, to ProbeRTT; a packet sent after that leads back to ProbeBW. -/
example : kind (Bbr.sample.run .sample .default (flights 0 50000000 0 10 3 ++ flight 150000000 12000000000 30 10)) = .probeRtt ∧
    kind (Bbr.sample.run .sample .default (flights 0 50000000 0 10 3 ++ flight 150000000 12000000000 30 10 ++ burst 13000000000 0 40 1)) = .probeBw ∧
    Fits .sample .default .sample (flights 0 50000000 0 10 3 ++ flight 150000000 12000000000 30 10 ++ burst 13000000000 0 40 1) := by decide +kernel

/-- Losses end Startup too. -/
example : kind (Bbr.sample.run .sample .default lossy) = .startup ∧
    ((Bbr.sample.run .sample .default lossy).onEvent .sample .default 150000000 2400 [30] [] 0).2.exit.map Exit.reason = some .loss ∧
    Numbered 0 lossy ∧ Fits .sample .default .sample lossy := by decide +kernel

end Verif.Props.C142
