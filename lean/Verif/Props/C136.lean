import Verif.Bbr.Pacer
import Verif.Props.C135

/-!
C136. The pacer used with BBR: release times advance by the time the packets take at the
rate, bursts are bounded, and the next release is never in the past.
-/

namespace Verif.Props.C136

open Verif.Bbr

/-! ### Runs -/

/-- What happens to the pacer. -/
inductive Op where
  | sent (v : View) (now inFlight bytes : Nat) (eliciting : Bool)
  | event (now inFlight : Nat) (losses : Bool)
  | appLimited

/-- One step. -/
def step (p : Pacer) : Op → Pacer
  | .sent v now inFlight bytes el => p.onSent v now inFlight bytes el
  | .event now inFlight losses => p.onEvent now inFlight losses
  | .appLimited => p.onAppLimited

/-- After all. -/
def run (p : Pacer) (ops : List Op) : Pacer := ops.foldl step p

theorem run_cons (p : Pacer) (op : Op) (ops : List Op) : run p (op :: ops) = run (step p op) ops := rfl

/-! ### Tokens -/

/-- What always holds. -/
structure Inv (p : Pacer) : Prop where
  burst : p.burst ≤ 10
  lumpy : p.lumpy ≤ 1
  ok : p.bad = false

theorem new_inv (enabled : Bool) (r : Option Nat) : Inv (.new enabled r) := ⟨Nat.le_refl _, Nat.zero_le _, rfl⟩

theorem lumps_range (v : View) (f : Nat) : 1 ≤ lumps v f ∧ lumps v f ≤ 2 := by
  unfold lumps lumpySize
  split
  · omega
  · split <;> omega

/-- The sender is not quiet once a packet was sent with nothing in flight. -/
theorem leave_quiet (p : Pacer) (f : Nat) (h : f = 0) : (p.leaveQuiet f).quiet = none := by
  unfold Pacer.leaveQuiet
  rw [if_pos h]

theorem leave_rest (p : Pacer) (f : Nat) : (p.leaveQuiet f).enabled = p.enabled ∧ (p.leaveQuiet f).maxRate = p.maxRate ∧ (p.leaveQuiet f).burst = p.burst ∧
    (p.leaveQuiet f).next = p.next ∧ (p.leaveQuiet f).lumpy = p.lumpy ∧ (p.leaveQuiet f).limited = p.limited ∧ (p.leaveQuiet f).bad = p.bad := by
  unfold Pacer.leaveQuiet
  split <;> exact ⟨rfl, rfl, rfl, rfl, rfl, rfl, rfl⟩

/-- So burst tokens are not added: at that time the sender never counts as quiet. -/
theorem refill_none (p : Pacer) (v : View) (f : Nat) : (p.leaveQuiet f).refill v f = p.burst := by
  unfold Pacer.refill
  rw [(leave_rest p f).2.2.1]
  by_cases h : f = 0
  · rw [leave_quiet p f h, if_neg (by simp)]
  · rw [if_neg (by simp [h])]

/-- A packet: nothing, one burst token less, or paced. -/
theorem sent_cases (p : Pacer) (v : View) (now f b : Nat) (el : Bool) :
    (((p.enabled = false ∨ el = false) ∧ p.onSent v now f b el = p.leaveQuiet f) ∨
     (p.enabled = true ∧ el = true ∧ p.burst > 0 ∧ p.onSent v now f b el = { p.leaveQuiet f with burst := p.burst - 1, next := .immediate, limited := false }) ∨
     (p.enabled = true ∧ el = true ∧ p.burst = 0 ∧ p.onSent v now f b el = (p.leaveQuiet f).paced v now f b)) := by
  unfold Pacer.onSent
  dsimp only
  have hr := refill_none p v f
  have hl := leave_rest p f
  by_cases h : (p.leaveQuiet f).enabled = false ∨ el = false
  · rw [if_pos h]
    rw [hl.1] at h
    exact Or.inl ⟨h, rfl⟩
  · rw [if_neg h, hr]
    rw [hl.1] at h
    have he : p.enabled = true := by simp only [not_or, Bool.not_eq_false] at h; exact h.1
    have hel : el = true := by simp only [not_or, Bool.not_eq_false] at h; exact h.2
    by_cases hb : p.burst > 0
    · rw [if_pos hb]
      exact Or.inr (Or.inl ⟨he, hel, hb, rfl⟩)
    · rw [if_neg hb]
      refine Or.inr (Or.inr ⟨he, hel, by omega, ?_⟩)
      have : ({ p.leaveQuiet f with burst := p.burst } : Pacer) = p.leaveQuiet f := by
        rw [← hl.2.2.1]
      rw [this]

theorem paced_inv {p : Pacer} (h : Inv p) (v : View) (now f b : Nat) : Inv (p.paced v now f b) := by
  have hl := lumps_range v (f + b)
  have := h.lumpy
  refine ⟨h.burst, ?_, ?_⟩
  · show (if p.limited = false ∨ p.lumpy = 0 then lumps v (f + b) else p.lumpy) - 1 ≤ 1
    split <;> omega
  · show (p.bad || decide ((if p.limited = false ∨ p.lumpy = 0 then lumps v (f + b) else p.lumpy) = 0)) = false
    rw [h.ok]
    simp only [Bool.false_or, decide_eq_false_iff_not]
    split
    · omega
    · next hn => simp only [not_or] at hn; exact hn.2

theorem step_inv {p : Pacer} (h : Inv p) (op : Op) : Inv (step p op) := by
  cases op with
  | sent v now f b el =>
    show Inv (p.onSent v now f b el)
    have hl : Inv (p.leaveQuiet f) := by
      obtain ⟨-, -, h1, -, h2, -, h3⟩ := leave_rest p f
      exact ⟨by rw [h1]; exact h.burst, by rw [h2]; exact h.lumpy, by rw [h3]; exact h.ok⟩
    rcases sent_cases p v now f b el with ⟨-, e⟩ | ⟨-, -, -, e⟩ | ⟨-, -, -, e⟩
    · rw [e]; exact hl
    · rw [e]
      have := h.burst
      exact ⟨by dsimp only; omega, hl.lumpy, hl.ok⟩
    · rw [e]; exact paced_inv hl v now f b
  | event now f losses =>
    show Inv (p.onEvent now f losses)
    unfold Pacer.onEvent
    dsimp only
    have hq : Inv (if f = 0 then { p with quiet := some now } else p) := by
      split
      · exact ⟨h.burst, h.lumpy, h.ok⟩
      · exact h
    generalize (if f = 0 then { p with quiet := some now } else p) = q at hq
    split
    · exact hq
    · split
      · exact ⟨Nat.zero_le _, hq.lumpy, hq.ok⟩
      · exact hq
  | appLimited => exact ⟨h.burst, h.lumpy, h.ok⟩

/-- **C136**, tokens: at most ten packets may go unpaced, at most one more than the one released in a lump, and the count of lumpy tokens
never goes below zero. -/
theorem tokens (enabled : Bool) (r : Option Nat) (ops : List Op) : Inv (run (.new enabled r) ops) := by
  have : ∀ (ops : List Op) (p : Pacer), Inv p → Inv (run p ops) := by
    intro ops
    induction ops with
    | nil => intro p h; exact h
    | cons op ops ih => intro p h; exact ih _ (step_inv h op)
  exact this ops _ (new_inv enabled r)

/-- **C136**, a lump of two packets only with a window of eight packets, a bandwidth of 1.2 Mbit/s and room in the window. -/
theorem lump_cond (v : View) (f : Nat) (h : 1 < lumps v f) : 8 ≤ v.packets ∧ 1200000 ≤ v.bandwidth ∧ f < v.cwnd := by
  unfold lumps lumpySize lumpyMinBandwidth at h
  split at h
  · omega
  · split at h
    · omega
    · omega

/-! ### Burst tokens are never added -/

/-- The number of packets sent without pacing. -/
def unpaced (p : Pacer) : List Op → Nat
  | [] => 0
  | .sent v now f b el :: ops => (if p.enabled = true ∧ el = true ∧ p.burst > 0 then 1 else 0) + unpaced (step p (.sent v now f b el)) ops
  | op :: ops => unpaced (step p op) ops

theorem unpaced_le : ∀ (ops : List Op) (p : Pacer), unpaced p ops + (run p ops).burst ≤ p.burst
  | [], p => by show 0 + p.burst ≤ p.burst; omega
  | .sent v now f b el :: ops, p => by
    have ih := unpaced_le ops (step p (.sent v now f b el))
    rw [run_cons]
    unfold unpaced
    generalize hq : step p (.sent v now f b el) = q at ih
    have hq : p.onSent v now f b el = q := hq
    obtain ⟨-, -, h1, -⟩ := leave_rest p f
    rcases sent_cases p v now f b el with ⟨hc, e⟩ | ⟨-, -, hb, e⟩ | ⟨-, -, hb, e⟩
    · have : q.burst = p.burst := by rw [← hq, e, h1]
      rw [if_neg (by intro h; rcases hc with hc | hc <;> simp_all)]
      omega
    · have : q.burst = p.burst - 1 := by rw [← hq, e]
      split <;> omega
    · have : q.burst = p.burst := by rw [← hq, e]; exact h1
      rw [if_neg (by omega)]
      omega
  | .event now f losses :: ops, p => by
    have ih := unpaced_le ops (step p (.event now f losses))
    have hb : (step p (.event now f losses)).burst ≤ p.burst := by
      show (p.onEvent now f losses).burst ≤ p.burst
      unfold Pacer.onEvent
      dsimp only
      have hq : (if f = 0 then { p with quiet := some now } else p).burst = p.burst := by split <;> rfl
      generalize (if f = 0 then { p with quiet := some now } else p) = q at hq
      split
      · omega
      · split
        · exact Nat.zero_le _
        · omega
    rw [run_cons]
    unfold unpaced
    omega
  | .appLimited :: ops, p => by
    have ih := unpaced_le ops (step p .appLimited)
    have hb : (step p .appLimited).burst = p.burst := rfl
    rw [run_cons]
    unfold unpaced
    omega

/-- **C136**, burst: over the whole life of a connection at most ten packets are sent without pacing; the tokens are never replaced, also not after
a time of quiescence (the comment at pacer.rs:142-145 says otherwise). -/
theorem ten_ever (enabled : Bool) (r : Option Nat) (ops : List Op) : unpaced (.new enabled r) ops ≤ 10 := by
  have := unpaced_le ops (.new enabled r)
  have h : (Pacer.new enabled r).burst = 10 := rfl
  omega

/-- A quiet connection sends: it gets no burst. -/
theorem replenished_false : ¬ ∀ (p : Pacer) (v : View) (now : Nat), p.enabled = true → p.quiet.isSome = true → 10 ≤ v.packets →
    9 ≤ (p.onSent v now 0 1200 true).burst := by
  intro h
  have := h ⟨true, none, 0, .immediate, 0, false, some 5, false⟩ ⟨12000, 10, 0, 0⟩ 7 rfl rfl (by decide)
  revert this
  decide

/-- **C136**, losses: with a loss the remaining burst is given up. -/
theorem loss_clears (p : Pacer) (now f : Nat) (h : p.enabled = true) : (p.onEvent now f true).burst = 0 := by
  unfold Pacer.onEvent
  dsimp only
  have hq : (if f = 0 then { p with quiet := some now } else p).enabled = true := by split <;> exact h
  rw [if_neg (by rw [hq]; decide), if_pos rfl]

/-! ### Release times -/

/-- A time of release. -/
def Release.time (r : Release) : Nat := match r with | .immediate => 0 | .at_ t => t

/-- The time the packets from an empty burst on take at rate `R`. -/
def busy (R : Nat) : List Op → Nat
  | [] => 0
  | .sent _ _ _ b true :: ops => transferTime R b + busy R ops
  | _ :: ops => busy R ops

/-- The rates the sender gives are not zero. -/
def Rated (ops : List Op) : Prop := ∀ v now f b el, Op.sent v now f b el ∈ ops → v.rate ≠ 0 ∧ v.rate < 2 ^ 64 - 1

theorem paced_next (p : Pacer) (v : View) (now f b : Nat) :
    ∃ t, (p.paced v now f b).next = .at_ t ∧ Release.time p.next + transferTime (p.rate v) b ≤ t ∧ now + transferTime (p.rate v) b ≤ t ∧
      t = max now (Release.time p.next) + transferTime (p.rate v) b := by
  show ∃ t, (p.next.setMax now).inc (transferTime (p.rate v) b) = .at_ t ∧ _
  cases p.next with
  | immediate => exact ⟨now + transferTime (p.rate v) b, rfl, by simp only [Release.time]; omega, Nat.le_refl _, by simp only [Release.time]; omega⟩
  | at_ u => exact ⟨max now u + transferTime (p.rate v) b, rfl, by simp only [Release.time]; omega, by omega, rfl⟩

/-- **C136**, one packet: with no burst left, the next release is after the packet's time at the rate, counted from the later of now and the release
before. -/
theorem paced_exact (p : Pacer) (v : View) (now f b : Nat) (he : p.enabled = true) (hb : p.burst = 0) :
    (p.onSent v now f b true).next = .at_ (max now (Release.time p.next) + transferTime (p.rate v) b) := by
  rcases sent_cases p v now f b true with ⟨h, -⟩ | ⟨-, -, h, -⟩ | ⟨-, -, -, e⟩
  · rcases h with h | h
    · rw [he] at h; cases h
    · cases h
  · omega
  · rw [e]
    obtain ⟨t, h1, -, -, h4⟩ := paced_next (p.leaveQuiet f) v now f b
    rw [h1, h4]
    have hl := leave_rest p f
    have : (p.leaveQuiet f).rate v = p.rate v := by unfold Pacer.rate; rw [hl.1, hl.2.1]
    rw [this, hl.2.2.2.1]

/-- **C136**, rate: once the burst is used up, the release time advances at least by the time all packets take at the greatest rate allowed: so the
packets released do not exceed that rate. -/
theorem rate_kept (R : Nat) (h0 : R ≠ 0) (hR : R < 2 ^ 64 - 1) : ∀ (ops : List Op) (p : Pacer), p.enabled = true → p.maxRate = some R → p.burst = 0 → Rated ops →
    Release.time p.next + busy R ops ≤ Release.time (run p ops).next
  | [], p, _, _, _, _ => by show Release.time p.next + 0 ≤ Release.time p.next; omega
  | .sent v now f b el :: ops, p, he, hm, hb, hrt => by
    have hrt' : Rated ops := fun v now f b el hmem => hrt v now f b el (List.mem_cons_of_mem _ hmem)
    rw [run_cons]
    obtain ⟨hl1, hl2, hl3, hl4, -⟩ := leave_rest p f
    rcases sent_cases p v now f b el with ⟨h, e⟩ | ⟨-, -, h, -⟩ | ⟨-, hel, -, e⟩
    · have hel : el = false := by
        rcases h with h | h
        · rw [he] at h; cases h
        · exact h
      rw [show step p (.sent v now f b el) = p.leaveQuiet f from e, hel]
      have := rate_kept R h0 hR ops (p.leaveQuiet f) (by rw [hl1]; exact he) (by rw [hl2]; exact hm) (by rw [hl3]; exact hb) hrt'
      rw [hl4] at this
      exact this
    · omega
    · rw [show step p (.sent v now f b el) = (p.leaveQuiet f).paced v now f b from e, hel]
      obtain ⟨t, k1, k2, -, -⟩ := paced_next (p.leaveQuiet f) v now f b
      have ih := rate_kept R h0 hR ops ((p.leaveQuiet f).paced v now f b) (show (p.leaveQuiet f).enabled = true by rw [hl1]; exact he)
        (show (p.leaveQuiet f).maxRate = some R by rw [hl2]; exact hm) (show (p.leaveQuiet f).burst = 0 by rw [hl3]; exact hb) hrt'
      have hv := hrt v now f b el (by simp)
      have hrate : (p.leaveQuiet f).rate v = min R v.rate := by
        unfold Pacer.rate
        rw [hl1, hl2, hm]
        dsimp only
        rw [if_pos he]
      have hmono : transferTime R b ≤ transferTime ((p.leaveQuiet f).rate v) b := by
        rw [hrate]
        exact C135.time_mono (min R v.rate) R b b (by omega) (Nat.min_le_left _ _) (Nat.le_refl _) hR
      rw [k1] at ih
      rw [hl4] at k2
      unfold busy
      simp only [Release.time] at ih k2 ⊢
      omega
  | .event now f losses :: ops, p, he, hm, hb, hrt => by
    have hrt' : Rated ops := fun v now f b el hmem => hrt v now f b el (List.mem_cons_of_mem _ hmem)
    have hq : (p.onEvent now f losses).enabled = true ∧ (p.onEvent now f losses).maxRate = some R ∧ (p.onEvent now f losses).burst = 0 ∧
        (p.onEvent now f losses).next = p.next := by
      unfold Pacer.onEvent
      dsimp only
      have hq : (if f = 0 then { p with quiet := some now } else p).enabled = true ∧ (if f = 0 then { p with quiet := some now } else p).maxRate = some R ∧
          (if f = 0 then { p with quiet := some now } else p).burst = 0 ∧ (if f = 0 then { p with quiet := some now } else p).next = p.next := by
        split <;> exact ⟨he, hm, hb, rfl⟩
      generalize (if f = 0 then { p with quiet := some now } else p) = q at hq
      split
      · exact hq
      · split
        · exact ⟨hq.1, hq.2.1, rfl, hq.2.2.2⟩
        · exact hq
    have ih := rate_kept R h0 hR ops (p.onEvent now f losses) hq.1 hq.2.1 hq.2.2.1 hrt'
    rw [hq.2.2.2] at ih
    exact ih
  | .appLimited :: ops, p, he, hm, hb, hrt => by
    have hrt' : Rated ops := fun v now f b el hmem => hrt v now f b el (List.mem_cons_of_mem _ hmem)
    exact rate_kept R h0 hR ops p.onAppLimited he hm hb hrt'

/-- A rate of zero is no limit at all. -/
theorem zero_unpaced (p : Pacer) (v : View) (now f b : Nat) (he : p.enabled = true) (hb : p.burst = 0) (hr : p.maxRate = some 0) :
    (p.onSent v now f b true).next = .at_ (max now (Release.time p.next)) := by
  rw [paced_exact p v now f b he hb]
  have : p.rate v = 0 := by
    unfold Pacer.rate
    rw [hr]
    dsimp only
    rw [if_pos he, Nat.zero_min]
  rw [this, (C135.time_none b).1, Nat.add_zero]

/-! ### The decision -/

/-- **C136**, disabled: packets may go at once. -/
theorem disabled (p : Pacer) (h : p.enabled = false) (now : Nat) : p.decision.at? now = none ∧ p.decision.burst = true := by
  unfold Pacer.decision
  rw [if_pos h]
  exact ⟨rfl, rfl⟩

/-- **C136**, a time given is in the future and the one of the pacer; otherwise the packet may go. -/
theorem future (d : Decision) (now : Nat) : (∀ t, d.at? now = some t → now < t ∧ d.time = .at_ t) ∧ (d.at? now = none → Release.time d.time ≤ now) := by
  unfold Decision.at?
  cases d.time with
  | immediate => exact ⟨(by intro t h; cases h), fun _ => Nat.zero_le _⟩
  | at_ u =>
    dsimp only
    by_cases h : u > now
    · rw [if_pos h]
      exact ⟨(by intro t ht; cases ht; exact ⟨h, rfl⟩), (by intro h; cases h)⟩
    · rw [if_neg h]
      exact ⟨(by intro t ht; cases ht), fun _ => by show u ≤ now; omega⟩

/-- **C136**, the same time: two decisions are, as seen now, at most 50 microseconds apart. -/
theorem same_time (a b : Decision) (now : Nat) :
    a.timeEq b now = true ↔ max (Release.time a.time) now ≤ max (Release.time b.time) now + 50000 ∧ max (Release.time b.time) now ≤ max (Release.time a.time) now + 50000 := by
  unfold Decision.timeEq Decision.at? equalThreshold
  cases a.time with
  | immediate =>
    cases b.time with
    | immediate => simp only [Release.time, true_iff]; omega
    | at_ u =>
      simp only [Release.time]
      by_cases h : u > now
      · simp only [if_pos h, decide_eq_true_eq]; omega
      · simp only [if_neg h, true_iff]; omega
  | at_ t =>
    cases b.time with
    | immediate =>
      simp only [Release.time]
      by_cases h : t > now
      · simp only [if_pos h, decide_eq_true_eq]; omega
      · simp only [if_neg h, true_iff]; omega
    | at_ u =>
      simp only [Release.time]
      by_cases h : t > now
      · by_cases h' : u > now
        · simp only [if_pos h, if_pos h']
          by_cases hlt : t < u
          · simp only [if_pos hlt, decide_eq_true_eq]; omega
          · simp only [if_neg hlt, decide_eq_true_eq]; omega
        · simp only [if_pos h, if_neg h', decide_eq_true_eq]; omega
      · by_cases h' : u > now
        · simp only [if_neg h, if_pos h', decide_eq_true_eq]; omega
        · simp only [if_neg h, if_neg h', true_iff]; omega

/-- **C136**, burst: a packet may be appended to a burst as long as there are tokens. -/
theorem burst_iff (p : Pacer) (h : p.enabled = true) : p.decision.burst = true ↔ 0 < p.burst ∨ 0 < p.lumpy := by
  unfold Pacer.decision
  rw [if_neg (by rw [h]; decide)]
  simp

/-- **C136**, lumps of two: while the pacer limits the sending, after a packet that may be followed at once comes one that may not. -/
theorem lump_ends (p : Pacer) (v : View) (now f b : Nat) (he : p.enabled = true) (hb : p.burst = 0) (hi : Inv p) (hl : p.limited = true)
    (hp : p.decision.burst = true) : (p.onSent v now f b true).decision.burst = false := by
  rw [burst_iff p he] at hp
  have hlum : p.lumpy = 1 := by have := hi.lumpy; omega
  rcases sent_cases p v now f b true with ⟨h, -⟩ | ⟨-, -, h, -⟩ | ⟨-, -, -, e⟩
  · rcases h with h | h
    · rw [he] at h; cases h
    · cases h
  · omega
  · rw [e]
    obtain ⟨l1, l2, l3, l4, l5, l6, l7⟩ := leave_rest p f
    unfold Pacer.decision Pacer.paced
    dsimp only
    rw [l5, l6, hl, hlum, l3, hb, l1, he]
    rfl

theorem lumps_two (v : View) (f : Nat) : 0 < lumps v f - 1 ↔ 8 ≤ v.packets ∧ 1200000 ≤ v.bandwidth ∧ f < v.cwnd := by
  unfold lumps
  simp only [lumpyMinBandwidth, lumpySize]
  split
  · omega
  · split <;> omega

theorem sent_paced (p : Pacer) (v : View) (now f b : Nat) (he : p.enabled = true) (hb : p.burst = 0) : p.onSent v now f b true = (p.leaveQuiet f).paced v now f b := by
  rcases sent_cases p v now f b true with ⟨h, -⟩ | ⟨-, -, h, -⟩ | ⟨-, -, -, e⟩
  · rcases h with h | h
    · rw [he] at h; cases h
    · cases h
  · omega
  · exact e

theorem unlimited_starts (p : Pacer) (v : View) (now f b : Nat) (he : p.enabled = true) (hb : p.burst = 0) (hl : p.limited = false) :
    (p.onSent v now f b true).decision.burst = true ↔ 8 ≤ v.packets ∧ 1200000 ≤ v.bandwidth ∧ f + b < v.cwnd := by
  rw [sent_paced p v now f b he hb]
  obtain ⟨l1, l2, l3, l4, l5, l6, l7⟩ := leave_rest p f
  rw [burst_iff _ (by show (p.leaveQuiet f).enabled = true; rw [l1, he]), ← lumps_two]
  unfold Pacer.paced
  dsimp only
  rw [if_pos (Or.inl (by first | rw [l5, hl] | rw [l6, hl])), l3, hb]
  omega

/-- **C136**, a new lump: after a packet that filled the window, or when the application had no more to send, the next packet begins a new lump: another
one may follow at once exactly when the window has room and is at least eight packets and the bandwidth is at least 1.2 Mbit/s, whatever was left of the
lump before. -/
theorem new_lump (p : Pacer) (v w : View) (now now' f f' b b' : Nat) (he : p.enabled = true) (hb : p.burst = 0) :
    (v.cwnd ≤ f + b → (((p.onSent v now f b true).onSent w now' f' b' true).decision.burst = true ↔ 8 ≤ w.packets ∧ 1200000 ≤ w.bandwidth ∧ f' + b' < w.cwnd)) ∧
    ((p.onAppLimited.onSent w now' f' b' true).decision.burst = true ↔ 8 ≤ w.packets ∧ 1200000 ≤ w.bandwidth ∧ f' + b' < w.cwnd) := by
  obtain ⟨l1, l2, l3, l4, l5, l6, l7⟩ := leave_rest p f
  refine ⟨fun hf => ?_, unlimited_starts _ w now' f' b' he hb rfl⟩
  refine unlimited_starts _ w now' f' b' ?_ ?_ ?_
  · rw [sent_paced p v now f b he hb]; show (p.leaveQuiet f).enabled = true; rw [l1, he]
  · rw [sent_paced p v now f b he hb]; show (p.leaveQuiet f).burst = 0; rw [l3, hb]
  · rw [sent_paced p v now f b he hb]; show decide (f + b < v.cwnd) = false; simp only [decide_eq_false_iff_not]; omega

/-! ### Cases -/

/-- 1200 bytes at 9.6 Mbit/s take 1 ms; two packets are released together. -/
def v96 : View := ⟨120000, 100, 9600000, 9600000⟩

/-- Ten packets at once, and then two every two milliseconds. -/
example : ((List.range 14).map fun k => (run (.new true none) ((List.range (k + 1)).map fun i => .sent v96 1000 (i * 1200) 1200 true)).decision)
    = List.replicate 9 ⟨.immediate, true⟩ ++ [⟨.immediate, false⟩, ⟨.at_ 1001000, true⟩, ⟨.at_ 2001000, false⟩, ⟨.at_ 3001000, true⟩, ⟨.at_ 4001000, false⟩] := by
  decide +kernel

/-- With a greatest rate of 4.8 Mbit/s a packet takes 2 ms. -/
example : (run { Pacer.new true (some 4800000) with burst := 0 } [.sent v96 1000 0 1200 true, .sent v96 1000 1200 1200 true]).next = .at_ 4001000
    ∧ busy 4800000 [.sent v96 1000 0 1200 true, .sent v96 1000 1200 1200 true] = 4000000 := by decide +kernel

/-- The second packet fills the window, which is in the middle of nothing: the third, with room again, may be followed at once. -/
example : ((run { Pacer.new true none with burst := 0 } [.sent v96 1000 0 1200 true, .sent v96 1000 118800 1200 true]).decision.burst = false)
    ∧ (run { Pacer.new true none with burst := 0 } [.sent v96 1000 0 1200 true, .sent v96 1000 118800 1200 true, .sent v96 1000 1200 1200 true]).decision.burst = true := by
  decide +kernel

end Verif.Props.C136
