import Verif.Bbr.HiInv
import Verif.Props.C141

/-!
C145. BBR's cycle of probing: a bandwidth measured is kept until probing has ended once more,
one not measured again is forgotten after that has happened twice, and the upper bound on the
bytes in flight is lowered only for losses and raised only to what was in flight or, in
PROBE_UP, when the window was full.
-/

namespace Verif.Props.C145

open Verif.Bbr Verif.Props.C142 Verif.Props.C141

/-! ### Specification -/

/-- The phase of ProbeBW. -/
def phase (b : Bbr) : Option Phase := match b.mode with | .probeBw y => some y.phase | _ => none

/-- In ProbeBW or ProbeRTT. -/
def Cycling (b : Bbr) : Prop := kind b = .probeBw ∨ kind b = .probeRtt

/-- A cycle is begun: PROBE_UP ends, or probing starts at all. -/
def Begins (b b' : Bbr) : Prop := (phase b = some .up ∧ phase b' = some .down) ∨ (¬Cycling b ∧ Cycling b')

/-- No cycle is begun. -/
def Within (F : Floats) (p : Params) (b : Bbr) : List BOp → Prop
  | [] => True
  | op :: ops => ¬Begins b (b.step F p op) ∧ Within F p (b.step F p op) ops

/-- The events are in order, from `t` on. -/
def InOrder (t : Nat) : List BOp → Prop
  | [] => True
  | .event now _ _ _ _ :: ops => t ≤ now ∧ InOrder now ops
  | _ :: ops => InOrder t ops

/-- No bandwidth above `M` is reported. -/
def Below (F : Floats) (p : Params) (M : Nat) (b : Bbr) : List BOp → Prop
  | [] => True
  | op :: ops => (match op with | .event now _ acked lost _ => ∀ s, (rep b now acked lost).maxBw = some s → s ≤ M | _ => True) ∧ Below F p M (b.step F p op) ops

/-- Losses above the threshold: enough events with losses in this round, and of what was in flight when the last packet was sent, too much lost. -/
def Over (F : Floats) (p : Params) (c : CEvent) (n : Net) (k : Nat) : Prop :=
  c.state.valid = true ∧ k ≤ n.lossEvents ∧ 0 < c.state.inFlight ∧ F.part c.state.inFlight p.lossThreshold < n.bytesLost

/-- What was in flight when the last packet acknowledged was sent, or was delivered since. -/
def flown (p : Params) (c : CEvent) (n : Net) : Nat := if p.deliveredForHi = true then n.sampler.acked - c.state.acked else c.state.inFlight

/-- The bound for losses in Startup: what the path holds. -/
def startBound (F : Floats) (p : Params) (n : Net) : Nat :=
  max (n.bdp F (max n.maxBw0 n.maxBw1) one) (if p.exitByDelivered = true then n.maxDelivered else 0)

/-- The bound for losses in probing: what was in flight, but not below the window or what the path holds, less a part `beta`. -/
def probeBound (F : Floats) (p : Params) (cwnd : Nat) (c : CEvent) (n : Net) : Nat :=
  max (max (flown p c n) (F.part (min (n.bdp F n.estimate one) cwnd) (F.comp p.beta))) (if p.limitHiByDelivered = true then n.maxDelivered else 0)

/-- In PROBE_UP, or in PROBE_DOWN before the first end of a round. -/
def Probing (b : Bbr) : Prop := ∃ y, b.mode = .probeBw y ∧ (y.phase = .up ∨ (y.phase = .down ∧ y.rounds = 0))

/-- A controller that has run from its creation, its last event at `T`. -/
structure Ran (F : Floats) (p : Params) (T : Nat) (b : Bbr) : Prop where
  run : ∃ initial max mss rtt now factor ops, InOrder 0 (ops ++ [.event T 0 [] [] 0]) ∧ b = (Bbr.new F p initial max mss rtt now factor).run F p ops

/-! ### Steps -/

/-- The invariant. -/
structure CInv (T : Nat) (b : Bbr) : Prop where
  sound : Sound T b.mode
  prob : ProbM b.mode

theorem Sound.mono {T U : Nat} {m : Mode} (h : Sound T m) (hu : T ≤ U) : Sound U m := by
  cases m with
  | startup => trivial
  | drain y => exact h
  | probeBw y => exact Fresh.mono h hu
  | probeRtt y e => exact h

theorem new_inv (F : Floats) (p : Params) (i m s r t f T : Nat) : CInv T (Bbr.new F p i m s r t f) := ⟨trivial, trivial⟩

/-- What an event is made of. -/
structure Event (F : Floats) (p : Params) (b : Bbr) (now f : Nat) (acked : List Acked) (lost : List Lost) (b' : Bbr) : Prop where
  inv : CInv now b'
  learned : Learned b.net now (b.net.reported now acked lost) (seen F p b now f acked lost).2
  bw : Filtered (seen F p b now f acked lost).2 b.mode b'.net b'.mode
  hi : Moved F p (seen F p b now f acked lost).1 (seen F p b now f acked lost).2
    (min ((seen F p b now f acked lost).2.bdp F (seen F p b now f acked lost).2.estimate one) b.cwnd) b.mode b'.net

theorem Filtered.congr {n m m' : Net} {a b : Mode} (h : Filtered n a m b) (k : SameBw m m') : Filtered n a m' b := by
  refine ⟨?_, fun h1 h2 => ⟨(h.enter h1 h2).1.trans k, (h.enter h1 h2).2⟩, fun hn => ?_⟩
  · rcases h.bw with g | g
    · exact Or.inl (g.trans k)
    · exact Or.inr ⟨g.1.same k, g.2⟩
  · rcases h.stay hn with g | g
    · exact Or.inl ⟨g.1.trans k, g.2⟩
    · exact Or.inr ⟨g.1, g.2.1.same k, g.2.2⟩

theorem Moved.congr {F : Floats} {p : Params} {c : CEvent} {n m m' : Net} {t : Nat} {a : Mode} (h : Moved F p c n t a m) (k : m'.inflightHi = m.inflightHi) :
    Moved F p c n t a m' := by
  cases h with
  | grow h => exact .grow (h.same k)
  | start h1 h2 h3 h4 h5 h6 => exact .start h1 h2 h3 h4 (by rw [k]; exact h5) (by rw [k]; exact h6)
  | cut y h1 h2 h3 => exact .cut y h1 h2 (by rw [k]; exact h3)
  | full y h1 h2 h3 => exact .full y h1 h2 (by rw [k]; exact h3)

theorem event_inv (F : Floats) (p : Params) {T : Nat} {b : Bbr} (h : CInv T b) (now f : Nat) (acked : List Acked) (lost : List Lost) (least : Nat) (ht : T ≤ now) :
    Event F p b now f acked lost (b.step F p (.event now f acked lost least)) := by
  show Event F p b now f acked lost (b.onEvent F p now f acked lost least).2
  obtain ⟨a1, -, a3⟩ := event_after F p b now f acked lost least
  have hs := start_keep F p b.net (.new now b.cwnd f b.mode.probing) acked lost
  have hn : (seen F p b now f acked lost).1.now = now := hs.now
  have hl := start_learned F p b.net (.new now b.cwnd f b.mode.probing) acked lost
  obtain ⟨k1, k2, -⟩ := loop_filtered F p (seen F p b now f acked lost).1 maxChanges { b with net := (seen F p b now f acked lost).2 } T h.sound (by rw [hn]; exact ht)
  obtain ⟨k3, k4⟩ := loop_hi F p (seen F p b now f acked lost).1 maxChanges { b with net := (seen F p b now f acked lost).2 } T h.sound (by rw [hn]; exact ht) h.prob
  have hfin : SameBw (b.moded F p now f acked lost).2.net (b.onEvent F p now f acked lost least).2.net ∧
      (b.onEvent F p now f acked lost least).2.net.inflightHi = (b.moded F p now f acked lost).2.net.inflightHi := by
    rw [a3]
    unfold Net.finish
    dsimp only
    split <;> exact ⟨⟨rfl, rfl⟩, rfl⟩
  rw [hn] at k2
  refine ⟨⟨by rw [a1]; exact k2, by rw [a1]; exact k4⟩, hl, ?_, ?_⟩
  · rw [a1]; exact Filtered.congr k1 hfin.1
  · exact Moved.congr k3 hfin.2

/-- A step that is not an event. -/
theorem other_inv (F : Floats) (p : Params) {T : Nat} {b : Bbr} (h : CInv T b) (op : BOp) (hop : ∀ now f a l least, op ≠ .event now f a l least) :
    CInv T (b.step F p op) ∧ SameBw b.net (b.step F p op).net ∧ (pendM (b.step F p op).mode ↔ pendM b.mode) ∧
    (b.step F p op).net.inflightHi = b.net.inflightHi := by
  cases op with
  | event now f a l least => exact absurd rfl (hop now f a l least)
  | sent now f pn bytes el =>
    obtain ⟨k1, k2, k3⟩ := quiet_filtered p b now f T h.sound
    obtain ⟨k4, k5⟩ := quiet_hi p b now f T h.sound h.prob
    exact ⟨⟨k2, k5⟩, k1, k3, k4⟩
  | appLimited f =>
    show CInv T (b.onAppLimited f) ∧ SameBw b.net (b.onAppLimited f).net ∧ (pendM (b.onAppLimited f).mode ↔ _) ∧ (b.onAppLimited f).net.inflightHi = _
    unfold Bbr.onAppLimited
    split <;> exact ⟨⟨h.sound, h.prob⟩, ⟨rfl, rfl⟩, Iff.rfl, rfl⟩
  | neutered pn => exact ⟨⟨h.sound, h.prob⟩, ⟨rfl, rfl⟩, Iff.rfl, rfl⟩
  | mss m f => exact ⟨⟨h.sound, h.prob⟩, ⟨rfl, rfl⟩, Iff.rfl, rfl⟩
  | limit m => exact ⟨⟨h.sound, h.prob⟩, ⟨rfl, rfl⟩, Iff.rfl, rfl⟩

theorem order_other {op : BOp} {ops : List BOp} {T : Nat} (hop : ∀ now f a l least, op ≠ .event now f a l least) (h : InOrder T (op :: ops)) : InOrder T ops := by
  cases op with
  | event now f a l least => exact absurd rfl (hop now f a l least)
  | _ => exact h

/-- Something kept by each step is kept by a run. -/
theorem run_keep {F : Floats} {p : Params} {P : Bbr → Prop} {G : Bbr → BOp → Prop}
    (he : ∀ (T : Nat) (b : Bbr) (now f : Nat) (acked : List Acked) (lost : List Lost) (least : Nat), CInv T b → T ≤ now → P b → G b (.event now f acked lost least) →
      P (b.step F p (.event now f acked lost least)))
    (ho : ∀ (T : Nat) (b : Bbr) (op : BOp), (∀ now f a l least, op ≠ .event now f a l least) → CInv T b → P b → P (b.step F p op))
    {R : Bbr → List BOp → Prop} (hr : ∀ b op ops, R b (op :: ops) → G b op ∧ R (b.step F p op) ops) :
    ∀ (ops : List BOp) (T : Nat) (b : Bbr) (rest : List BOp), InOrder T (ops ++ rest) → CInv T b → P b → R b ops →
      P (b.run F p ops) ∧ ∃ U, CInv U (b.run F p ops) ∧ InOrder U rest
  | [], T, _, _, ho, hc, hp, _ => ⟨hp, T, hc, ho⟩
  | op :: ops, T, b, rest, hord, hc, hp, hR => by
    obtain ⟨g1, g2⟩ := hr b op ops hR
    by_cases hop : ∃ now f a l least, op = .event now f a l least
    · obtain ⟨now, f, a, l, least, rfl⟩ := hop
      have hord' : T ≤ now ∧ InOrder now (ops ++ rest) := hord
      exact run_keep he ho hr ops now _ rest hord'.2 (event_inv F p hc now f a l least hord'.1).inv (he T b now f a l least hc hord'.1 hp g1) g2
    · have hop' : ∀ now f a l least, op ≠ .event now f a l least := fun now f a l least h => hop ⟨now, f, a, l, least, h⟩
      exact run_keep he ho hr ops T _ rest (order_other hop' hord) (other_inv F p hc op hop').1 (ho T b op hop' hc hp) g2

/-- The invariant after a run. -/
theorem run_inv (F : Floats) (p : Params) (ops : List BOp) (T : Nat) (b : Bbr) (rest : List BOp) (ho : InOrder T (ops ++ rest)) (hc : CInv T b) :
    ∃ U, CInv U (b.run F p ops) ∧ InOrder U rest :=
  (run_keep (F := F) (p := p) (P := fun _ => True) (G := fun _ _ => True) (R := fun _ _ => True) (fun _ _ _ _ _ _ _ _ _ _ _ => trivial)
    (fun _ _ _ _ _ _ => trivial) (fun _ _ _ _ => ⟨trivial, trivial⟩) ops T b rest ho hc trivial trivial).2

theorem Ran.inv {F : Floats} {p : Params} {T : Nat} {b : Bbr} (h : Ran F p T b) : CInv T b := by
  obtain ⟨i, m, s, r, t, f, ops, h1, h2⟩ := h
  obtain ⟨U, k1, k2⟩ := run_inv F p ops 0 _ _ h1 (new_inv F p i m s r t f 0)
  rw [h2]
  exact ⟨Sound.mono k1.sound k2.1, k1.prob⟩

theorem phase_mode {b : Bbr} {x : Phase} (h : phase b = some x) : ∃ y, b.mode = .probeBw y ∧ y.phase = x := by
  unfold phase at h
  generalize b.mode = m at h
  cases m with
  | probeBw y => exact ⟨y, rfl, Option.some.inj h⟩
  | startup => cases h
  | drain y => cases h
  | probeRtt y e => cases h

theorem cycling_iff (b : Bbr) : Cycling b ↔ 2 ≤ b.mode.kind := by
  unfold Cycling kind
  generalize b.mode = m
  cases m with
  | startup => exact iff_of_false (fun h => by rcases h with h | h <;> cases h) (by show ¬(2 ≤ 0); decide)
  | drain y => exact iff_of_false (fun h => by rcases h with h | h <;> cases h) (by show ¬(2 ≤ 1); decide)
  | probeBw y => exact iff_of_true (Or.inl rfl) (Nat.le_refl 2)
  | probeRtt y e => exact iff_of_true (Or.inr rfl) (by show 2 ≤ 3; decide)

theorem begins_iff (b b' : Bbr) : Begins b b' ↔ Enters b.mode b'.mode := by
  unfold Begins Enters
  rw [cycling_iff, cycling_iff]
  constructor
  · rintro (⟨h1, h2⟩ | ⟨h1, h2⟩)
    · obtain ⟨y, k1, k2⟩ := phase_mode h1
      obtain ⟨z, k3, k4⟩ := phase_mode h2
      exact Or.inl ⟨y, z, k1, k3, k2, k4⟩
    · exact Or.inr ⟨Nat.lt_of_not_le h1, h2⟩
  · rintro (⟨y, z, h1, h2, h3, h4⟩ | ⟨h1, h2⟩)
    · left
      unfold phase
      rw [h1, h2]
      exact ⟨congrArg some h3, congrArg some h4⟩
    · exact Or.inr ⟨Nat.not_le_of_lt h1, h2⟩

theorem pend_down {b : Bbr} (h : pendM b.mode) : phase b = some .down := by
  unfold phase
  generalize b.mode = m at h
  cases m with
  | probeBw y => exact congrArg some h.1
  | startup => exact h.elim
  | drain y => exact h.elim
  | probeRtt y e => exact h.elim

/-! ### Remembered and forgotten -/

/-- A bandwidth that is still to be kept for a cycle. -/
def Safe (s : Nat) (b : Bbr) : Prop := s ≤ b.net.maxBw1 ∨ (s ≤ b.net.maxBw0 ∧ ¬pendM b.mode)

theorem advance_bw (n : Net) : n.advance.maxBw1 = 0 ∧ n.maxBw1 ≤ n.advance.maxBw0 ∧ (n.maxBw1 ≠ 0 → n.advance.maxBw0 = n.maxBw1) ∧
    (n.advance.maxBw0 = n.maxBw0 ∨ n.advance.maxBw0 = n.maxBw1) := by
  unfold Net.advance
  split
  · next h => exact ⟨h, by rw [h]; exact Nat.zero_le _, fun k => absurd h k, Or.inl rfl⟩
  · exact ⟨rfl, Nat.le_refl _, fun _ => rfl, Or.inr rfl⟩

theorem learned_bw {n m : Net} {now : Nat} {r : EventSample × Sampler} (h : Learned n now r m) : m.maxBw0 = n.maxBw0 ∧ n.maxBw1 ≤ m.maxBw1 ∧
    (∀ M, n.maxBw1 ≤ M → (∀ s, r.1.maxBw = some s → s ≤ M) → m.maxBw1 ≤ M) := by
  refine ⟨h.bw0, ?_, fun M h1 h2 => ?_⟩
  · rcases h.bw1 with k | ⟨s, -, k, -⟩ <;> rw [k]
    · exact Nat.le_refl _
    · exact Nat.le_max_left _ _
  · rcases h.bw1 with k | ⟨s, k1, k, -⟩ <;> rw [k]
    · exact h1
    · exact Nat.max_le.2 ⟨h1, h2 s k1⟩

theorem safe_event {F : Floats} {p : Params} {s T : Nat} {b : Bbr} {now f : Nat} {acked : List Acked} {lost : List Lost} {least : Nat} (hc : CInv T b) (ht : T ≤ now)
    (h : Safe s b) (hb : ¬Begins b (b.step F p (.event now f acked lost least))) : Safe s (b.step F p (.event now f acked lost least)) := by
  have e := event_inv F p hc now f acked lost least ht
  obtain ⟨l1, l2, -⟩ := learned_bw e.learned
  rw [begins_iff] at hb
  have k := e.bw.stay hb
  generalize b.step F p (.event now f acked lost least) = b' at k
  generalize (seen F p b now f acked lost).2 = n at k l1 l2
  unfold Safe at *
  obtain ⟨a1, a2, -, -⟩ := advance_bw n
  rcases k with ⟨⟨k1, k2⟩, k3⟩ | ⟨k1, ⟨k2, k3⟩, k4⟩
  · rcases h with h | ⟨h1, h2⟩
    · left; omega
    · right; exact ⟨by omega, fun hp => h2 (k3.1 hp)⟩
  · rcases h with h | ⟨h1, h2⟩
    · right; exact ⟨by omega, k4⟩
    · exact absurd k1 h2

/-- **C145**, remembered: a bandwidth not limited by the application is not above the estimate until the next cycle is begun. -/
theorem remembered (F : Floats) (p : Params) (initial max mss rtt t0 factor : Nat) (pre : List BOp) (now f : Nat) (acked : List Acked) (lost : List Lost) (least : Nat)
    (post : List BOp) (s : Nat) (hord : InOrder 0 (pre ++ .event now f acked lost least :: post)) :
    let b := (Bbr.new F p initial max mss rtt t0 factor).run F p pre
    let b1 := b.step F p (.event now f acked lost least)
    (rep b now acked lost).maxBw = some s → News b now acked lost → (rep b now acked lost).appLimited = false → Within F p b1 post → s ≤ best (b1.run F p post) := by
  intro b b1 h1 h2 h3 hw
  obtain ⟨T, hc, ho⟩ := run_inv F p pre 0 _ _ hord (new_inv F p initial max mss rtt t0 factor 0)
  have ho' : T ≤ now ∧ InOrder now post := ho
  have e := event_inv F p hc now f acked lost least ho'.1
  have hs : s ≤ (seen F p b now f acked lost).2.maxBw1 := e.learned.got s h1 h2 h3
  have h0 : Safe s b1 := by
    obtain ⟨a1, a2, -, -⟩ := advance_bw (seen F p b now f acked lost).2
    rcases e.bw.bw with k | ⟨k, k2⟩
    · left; have := k.2; exact Nat.le_trans hs (Nat.le_of_eq this.symm)
    · right
      exact ⟨Nat.le_trans hs (Nat.le_trans a2 (Nat.le_of_eq k.1.symm)), k2⟩
  have := (run_keep (F := F) (p := p) (P := Safe s) (G := fun b op => ¬Begins b (b.step F p op)) (R := Within F p)
    (fun T b now f a l least hc ht hp hg => safe_event hc ht hp hg)
    (fun T b op hop hc hp => by
      obtain ⟨-, k1, k2, -⟩ := other_inv F p hc op hop
      unfold Safe
      rw [k1.1, k1.2, k2]
      exact hp)
    (fun b op ops h => h) post now b1 [] (by rw [List.append_nil]; exact ho'.2) e.inv h0 hw).1
  unfold best
  rcases this with k | ⟨k, -⟩
  · exact Nat.le_trans k (Nat.le_max_right _ _)
  · exact Nat.le_trans k (Nat.le_max_left _ _)

theorem below_append {F : Floats} {p : Params} {M : Nat} : ∀ (xs : List BOp) {b : Bbr} {ys : List BOp}, Below F p M b (xs ++ ys) →
    Below F p M b xs ∧ Below F p M (b.run F p xs) ys
  | [], _, _, h => ⟨trivial, h⟩
  | _ :: xs, _, _, h => by
    obtain ⟨k1, k2⟩ := below_append xs h.2
    exact ⟨⟨h.1, k1⟩, k2⟩

/-- Only an event ends PROBE_UP. -/
theorem begins_event {F : Floats} {p : Params} {T : Nat} {b : Bbr} {op : BOp} (hc : CInv T b) (hu : phase b = some .up) (hd : phase (b.step F p op) = some .down) :
    ∃ now f a l least, op = .event now f a l least := by
  obtain ⟨y, k1, k2⟩ := phase_mode hu
  obtain ⟨z, k3, k4⟩ := phase_mode hd
  cases op with
  | event now f a l least => exact ⟨now, f, a, l, least, rfl⟩
  | sent now f pn bytes el =>
    exfalso
    have hm : (b.step F p (.sent now f pn bytes el)).mode = b.mode := by
      show (if f = 0 then b.exitQuiet p now else b).mode = b.mode
      split
      · unfold Bbr.exitQuiet
        split
        · rfl
        · unfold Bbr.wake
          dsimp only
          rw [k1]
      · rfl
    rw [hm, k1] at k3
    cases k3
    rw [k2] at k4
    cases k4
  | appLimited f =>
    exfalso
    have hm : (b.step F p (.appLimited f)).mode = b.mode := by
      show (b.onAppLimited f).mode = b.mode
      unfold Bbr.onAppLimited
      split <;> rfl
    rw [hm, k1] at k3
    cases k3
    rw [k2] at k4
    cases k4
  | neutered pn => exfalso; have k3' : b.mode = .probeBw z := k3; rw [k1] at k3'; cases k3'; rw [k2] at k4; cases k4
  | mss m f => exfalso; have k3' : b.mode = .probeBw z := k3; rw [k1] at k3'; cases k3'; rw [k2] at k4; cases k4
  | limit m => exfalso; have k3' : b.mode = .probeBw z := k3; rw [k1] at k3'; cases k3'; rw [k2] at k4; cases k4

/-- The end of PROBE_UP. -/
theorem up_down {F : Floats} {p : Params} {T : Nat} {b : Bbr} {now f : Nat} {acked : List Acked} {lost : List Lost} {least : Nat} (hc : CInv T b) (ht : T ≤ now)
    (hu : phase b = some .up) (hd : phase (b.step F p (.event now f acked lost least)) = some .down) :
    SameBw (seen F p b now f acked lost).2 (b.step F p (.event now f acked lost least)).net ∧ pendM (b.step F p (.event now f acked lost least)).mode := by
  obtain ⟨y, k1, -⟩ := phase_mode hu
  exact (event_inv F p hc now f acked lost least ht).bw.enter (by rw [k1]; rfl) ((begins_iff _ _).1 (Or.inl ⟨hu, hd⟩))

/-- **C145**, forgotten: once probing has ended twice (`e1`, `e2`) and PROBE_DOWN been left, the estimate is not above what was reported since,
if anything was measured between. -/
theorem forgotten (F : Floats) (p : Params) (initial max mss rtt t0 factor : Nat) (pre mid post : List BOp) (e1 e2 : BOp) (M : Nat)
    (hord : InOrder 0 (pre ++ e1 :: (mid ++ e2 :: post))) :
    let b0 := (Bbr.new F p initial max mss rtt t0 factor).run F p pre
    let b1 := b0.step F p e1
    let b2 := b1.run F p mid
    let b3 := b2.step F p e2
    phase b0 = some .up → phase b1 = some .down → phase b2 = some .up → phase b3 = some .down → b3.net.maxBw1 ≠ 0 →
    phase (b3.run F p post) ≠ some .down → Below F p M b1 (mid ++ e2 :: post) → best (b3.run F p post) ≤ M := by
  intro b0 b1 b2 b3 h0 h1 h2 h3 hne h4 hM
  obtain ⟨T, hc, ho⟩ := run_inv F p pre 0 _ _ hord (new_inv F p initial max mss rtt t0 factor 0)
  obtain ⟨now, f, a, l, least, rfl⟩ := begins_event hc h0 h1
  have ho' : T ≤ now ∧ InOrder now (mid ++ e2 :: post) := ho
  obtain ⟨-, hp1⟩ := up_down hc ho'.1 h0 h1
  obtain ⟨m1, m2⟩ := below_append mid hM
  have hc1 := (event_inv F p hc now f a l least ho'.1).inv
  -- until PROBE_DOWN is left the first time
  have r1 := run_keep (F := F) (p := p) (P := fun b => pendM b.mode ∨ b.net.maxBw1 ≤ M)
    (G := fun b op => match op with | .event now _ acked lost _ => ∀ s, (rep b now acked lost).maxBw = some s → s ≤ M | _ => True) (R := Below F p M)
    (fun T b now f a l least hc ht hp hg => by
      have e := event_inv F p hc now f a l least ht
      obtain ⟨-, -, l3⟩ := learned_bw e.learned
      obtain ⟨a1, -⟩ := advance_bw (seen F p b now f a l).2
      rcases hp with hp | hp
      · have hn : ¬Enters b.mode (b.step F p (.event now f a l least)).mode := by
          rw [← begins_iff]
          rintro (⟨k, -⟩ | ⟨k, -⟩)
          · rw [pend_down hp] at k; cases k
          · exact k ((cycling_iff b).2 (by obtain ⟨y, q, -⟩ := phase_mode (pend_down hp); rw [q]; exact Nat.le_refl 2))
        rcases e.bw.stay hn with ⟨-, k⟩ | ⟨-, k, -⟩
        · exact Or.inl (k.2 hp)
        · exact Or.inr (by rw [k.2, a1]; exact Nat.zero_le _)
      · right
        rcases e.bw.bw with k | ⟨k, -⟩
        · rw [k.2]; exact l3 M hp hg
        · rw [k.2, a1]; exact Nat.zero_le _)
    (fun T b op hop hc hp => by
      obtain ⟨-, k1, k2, -⟩ := other_inv F p hc op hop
      rw [k1.2, k2]
      exact hp)
    (fun b op ops h => h) mid now b1 (e2 :: post) ho'.2 hc1 (Or.inl hp1) m1
  obtain ⟨r2, U, hc2, ho2⟩ := r1
  have hb2 : b2.net.maxBw1 ≤ M := by
    rcases r2 with k | k
    · have hk := pend_down k
      have h2' : phase (b1.run F p mid) = some .up := h2
      rw [h2'] at hk; cases hk
    · exact k
  obtain ⟨now2, f2, a2, l2, least2, rfl⟩ := begins_event hc2 h2 h3
  have ho2' : U ≤ now2 ∧ InOrder now2 post := ho2
  obtain ⟨g1, g2⟩ := up_down hc2 ho2'.1 h2 h3
  have ee := event_inv F p hc2 now2 f2 a2 l2 least2 ho2'.1
  have hb3 : b3.net.maxBw1 ≤ M := by
    have : b3.net.maxBw1 = (seen F p b2 now2 f2 a2 l2).2.maxBw1 := g1.2
    rw [this]
    exact (learned_bw ee.learned).2.2 M hb2 m2.1
  -- until it is left the second time
  have r3 := (run_keep (F := F) (p := p) (P := fun b => b.net.maxBw1 ≤ M ∧ ((pendM b.mode ∧ b.net.maxBw1 ≠ 0) ∨ b.net.maxBw0 ≤ M))
    (G := fun b op => match op with | .event now _ acked lost _ => ∀ s, (rep b now acked lost).maxBw = some s → s ≤ M | _ => True) (R := Below F p M)
    (fun T b now f a l least hc ht hp hg => by
      have e := event_inv F p hc now f a l least ht
      obtain ⟨l1, l2, l3⟩ := learned_bw e.learned
      obtain ⟨a1, -, a3, a4⟩ := advance_bw (seen F p b now f a l).2
      have q := l3 M hp.1 hg
      have hb1 : (b.step F p (.event now f a l least)).net.maxBw1 ≤ M := by
        rcases e.bw.bw with k | ⟨k, -⟩
        · rw [k.2]; exact q
        · rw [k.2, a1]; exact Nat.zero_le _
      refine ⟨hb1, ?_⟩
      rcases hp.2 with ⟨hp, hz⟩ | hp
      · have hn : ¬Enters b.mode (b.step F p (.event now f a l least)).mode := by
          rw [← begins_iff]
          rintro (⟨k, -⟩ | ⟨k, -⟩)
          · rw [pend_down hp] at k; cases k
          · exact k ((cycling_iff b).2 (by obtain ⟨y, q, -⟩ := phase_mode (pend_down hp); rw [q]; exact Nat.le_refl 2))
        have hz' : (seen F p b now f a l).2.maxBw1 ≠ 0 := fun h => hz (Nat.le_zero.1 (h ▸ l2))
        rcases e.bw.stay hn with ⟨k1, k⟩ | ⟨-, k, -⟩
        · exact Or.inl ⟨k.2 hp, by rw [k1.2]; exact hz'⟩
        · right; rw [k.1, a3 hz']; exact q
      · right
        rcases e.bw.bw with k | ⟨k, -⟩
        · rw [k.1, l1]; exact hp
        · rw [k.1]
          rcases a4 with a4 | a4 <;> rw [a4]
          · rw [l1]; exact hp
          · exact q)
    (fun T b op hop hc hp => by
      obtain ⟨-, k1, k2, -⟩ := other_inv F p hc op hop
      rw [k1.1, k1.2, k2]
      exact hp)
    (fun b op ops h => h) post now2 b3 [] (by rw [List.append_nil]; exact ho2'.2) ee.inv ⟨hb3, Or.inl ⟨g2, hne⟩⟩ m2.2).1
  unfold best
  rcases r3 with ⟨k1, ⟨k2, -⟩ | k2⟩
  · exact absurd (pend_down k2) h4
  · exact Nat.max_le.2 ⟨k2, k1⟩

/-! ### The upper bound -/

theorem over_of {F : Floats} {p : Params} {c : CEvent} {n : Net} {k : Nat} (h : n.tooHigh F p c k = true) : Over F p c n k := by
  unfold Net.tooHigh at h
  simp only [Bool.and_eq_true, decide_eq_true_eq] at h
  exact ⟨h.1.1.1.1, h.1.1.1.2, h.1.1.2, h.2⟩

theorem start_eq (F : Floats) (p : Params) (n : Net) : startTo F p n = startBound F p n := by
  have hb : n.bdp0 F = n.bdp F (max n.maxBw0 n.maxBw1) one := rfl
  unfold startTo startBound
  rw [hb]
  split
  · rfl
  · exact (Nat.max_eq_left (Nat.zero_le _)).symm

theorem cut_eq (F : Floats) (p : Params) (n : Net) (c : CEvent) (cwnd : Nat) : cutTo F p n c (min (n.bdp F n.estimate one) cwnd) = probeBound F p cwnd c n := by
  unfold cutTo probeBound
  split
  · exact Nat.max_comm _ _
  · exact (Nat.max_eq_left (Nat.zero_le _)).symm

/-- **C145**, bound: how an event moves the upper bound on the bytes in flight. -/
theorem bound_moves {F : Floats} {p : Params} {T : Nat} {b : Bbr} (h : Ran F p T b) (now inFlight : Nat) (acked : List Acked) (lost : List Lost) (least : Nat) (ht : T ≤ now) :
    let s := seen F p b now inFlight acked lost
    let hi := b.net.inflightHi
    let hi' := (b.step F p (.event now inFlight acked lost least)).net.inflightHi
    (hi ≤ hi' ∧ hi' ≤ max hi (flown p s.1 s.2)) ∨
    (kind b = .startup ∧ Over F p s.1 s.2 p.startupLossCount ∧ s.1.state.appLimited = false ∧
      startBound F p s.2 ≤ hi' ∧ hi' ≤ max (startBound F p s.2) (flown p s.1 s.2)) ∨
    (Probing b ∧ Over F p s.1 s.2 p.probeLossCount ∧ (hi' = hi ∨ hi' = probeBound F p b.cwnd s.1 s.2)) ∨
    (phase b = some .up ∧ b.cwnd ≤ inFlight ∧ hi ≤ b.cwnd ∧ hi ≤ hi') := by
  intro s hi hi'
  have e := (event_inv F p h.inv now inFlight acked lost least ht).hi
  have hk := start_keep F p b.net (.new now b.cwnd inFlight b.mode.probing) acked lost
  have hh : s.2.inflightHi = hi := hk.hi
  have hc : s.1.priorCwnd = b.cwnd := hk.priorCwnd
  have hf : s.1.priorInFlight = inFlight := hk.priorInFlight
  cases e with
  | grow g =>
    left
    unfold Grow at g
    rw [show (seen F p b now inFlight acked lost).2.inflightHi = hi from hh] at g
    exact g
  | start g1 g2 g3 g4 g5 g6 =>
    right; left
    rw [start_eq] at g5 g6
    refine ⟨by unfold kind; rw [g1], over_of g2, g3, g5, g6⟩
  | cut y g1 g2 g3 =>
    right; right; left
    refine ⟨⟨y, g1, g2⟩, over_of g3.1, ?_⟩
    rcases g3.2 with k | ⟨-, k⟩
    · exact Or.inl (k.trans hh)
    · rw [cut_eq] at k
      exact Or.inr k
  | full y g1 g2 g3 =>
    right; right; right
    obtain ⟨q1, -, q3, q4⟩ := g2
    rw [show (seen F p b now inFlight acked lost).1.priorCwnd = b.cwnd from hc, show (seen F p b now inFlight acked lost).1.priorInFlight = inFlight from hf] at q3
    rw [show (seen F p b now inFlight acked lost).1.priorCwnd = b.cwnd from hc, show (seen F p b now inFlight acked lost).2.inflightHi = hi from hh] at q4
    rw [show (seen F p b now inFlight acked lost).2.inflightHi = hi from hh] at g3
    exact ⟨by unfold phase; rw [g1]; exact congrArg some q1, q3, q4, g3⟩

/-- **C145**, lowered: only for losses above the threshold, in Startup or in probing, and not below what the path holds or a part of it. -/
theorem bound_lowered {F : Floats} {p : Params} {T : Nat} {b : Bbr} (h : Ran F p T b) (now inFlight : Nat) (acked : List Acked) (lost : List Lost) (least : Nat) (ht : T ≤ now)
    (hl : (b.step F p (.event now inFlight acked lost least)).net.inflightHi < b.net.inflightHi) :
    let s := seen F p b now inFlight acked lost
    let hi' := (b.step F p (.event now inFlight acked lost least)).net.inflightHi
    (kind b = .startup ∧ Over F p s.1 s.2 p.startupLossCount ∧ s.2.bdp F (max s.2.maxBw0 s.2.maxBw1) one ≤ hi') ∨
    (Probing b ∧ Over F p s.1 s.2 p.probeLossCount ∧ flown p s.1 s.2 ≤ hi' ∧ F.part (min (s.2.bdp F s.2.estimate one) b.cwnd) (F.comp p.beta) ≤ hi') := by
  intro s hi'
  rcases bound_moves h now inFlight acked lost least ht with ⟨k, -⟩ | ⟨k1, k2, -, k3, -⟩ | ⟨k1, k2, k3⟩ | ⟨-, -, -, k⟩
  · exact absurd k (Nat.not_le_of_lt hl)
  · exact Or.inl ⟨k1, k2, Nat.le_trans (Nat.le_max_left _ _) k3⟩
  · rcases k3 with k3 | k3
    · exact absurd k3 (Nat.ne_of_lt hl)
    · refine Or.inr ⟨k1, k2, ?_, ?_⟩
      · show _ ≤ (b.step F p (.event now inFlight acked lost least)).net.inflightHi
        rw [k3]
        exact Nat.le_trans (Nat.le_max_left _ _) (Nat.le_max_left _ _)
      · show _ ≤ (b.step F p (.event now inFlight acked lost least)).net.inflightHi
        rw [k3]
        exact Nat.le_trans (Nat.le_max_right _ _) (Nat.le_max_left _ _)
  · exact absurd k (Nat.not_le_of_lt hl)

/-- **C145**, otherwise: nothing but an event moves the bound. -/
theorem bound_kept {F : Floats} {p : Params} {T : Nat} {b : Bbr} (h : Ran F p T b) (op : BOp) (hop : ∀ now f a l least, op ≠ .event now f a l least) :
    (b.step F p op).net.inflightHi = b.net.inflightHi := (other_inv F p h.inv op hop).2.2.2

/-! ### Examples -/

instance decOrder : ∀ (t : Nat) (ops : List BOp), Decidable (InOrder t ops)
  | _, [] => isTrue trivial
  | _, .event now _ _ _ _ :: l => @instDecidableAnd _ _ _ (decOrder now l)
  | t, .sent _ _ _ _ _ :: l => decOrder t l
  | t, .neutered _ :: l => decOrder t l
  | t, .appLimited _ :: l => decOrder t l
  | t, .mss _ _ :: l => decOrder t l
  | t, .limit _ :: l => decOrder t l

/-- Twenty packets, every other one lost. -/
def losing (now pn : Nat) : List BOp :=
  burst now 0 pn 20 ++ (List.range 10).map fun i => .event (now + 50000000 + i) (24000 - 2400 * i) [pn + 2 * i] [⟨pn + 1 + 2 * i, 1200⟩] 0

/-- Startup and probing, twice ended by losses. -/
def twice : List BOp :=
  flights 0 50000000 0 10 4 ++ flight 200000000 3000000000 40 10 ++ flights 3200000000 50000000 50 12 2 ++ losing 3300000000 74 ++
    flight 3350000010 3000000000 94 8 ++ flights 6350000010 50000000 102 8 2 ++ losing 6450000010 118

/-- The sample's controller after so many operations. -/
def after (k : Nat) : Bbr := Bbr.sample.run .sample .default (twice.take k)

/-- The greatest bandwidth was measured before the first end of probing; it is kept until the second, then it is forgotten. -/
example : InOrder 0 twice ∧ phase (after 103) = some .up ∧ phase (after 104) = some .down ∧ phase (after 158) = some .up ∧ phase (after 159) = some .down ∧
    (after 159).net.maxBw1 ≠ 0 ∧ phase (after 166) = some .cruise ∧ best (after 103) = 2304000 ∧ best (after 165) = 2304000 ∧ best (after 166) = 1919999 := by
  decide +kernel

/-- Losses in PROBE_UP set the bound; in the first round of PROBE_DOWN they still lower it; what was in flight raises it again. -/
example : (after 103).net.inflightHi = u64Max ∧ (after 104).net.inflightHi = 10080 ∧ (after 111).net.inflightHi = 12000 ∧
    phase (after 160) = some .down ∧ (after 160).net.inflightHi = 12000 ∧ (after 161).net.inflightHi = 8400 := by decide +kernel

/-- Losses in Startup. -/
example : let b := Bbr.sample.run .sample .default lossy
    InOrder 0 lossy ∧ kind b = .startup ∧ b.net.inflightHi = u64Max ∧ (b.step .sample .default (.event 150000000 2400 [30] [] 0)).net.inflightHi = 12000 := by
  decide +kernel

/-- A full window in PROBE_UP raises the bound. -/
def full : List BOp :=
  flights 0 50000000 0 10 4 ++ flight 200000000 3000000000 40 10 ++ flights 3200000000 50000000 50 12 2 ++ losing 3300000000 74 ++
    flight 3350000010 3000000000 94 8 ++ flights 6350000010 50000000 102 8 2 ++ flights 6450000010 50000000 118 10 3

example : InOrder 0 full ∧ phase (Bbr.sample.run .sample .default (full.take 148)) = some .up ∧
    (Bbr.sample.run .sample .default (full.take 148)).net.inflightHi = 12000 ∧ (Bbr.sample.run .sample .default (full.take 149)).net.inflightHi = 13300 := by
  decide +kernel

end Verif.Props.C145
