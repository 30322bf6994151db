import Verif.Bbr.NetInv
import Verif.Props.C139
import Verif.Props.C142

/-!
C141. What BBR knows of the path was measured: the bandwidth and the minimum round trip are
samples of packets sent and acknowledged, a good sample is never ignored, the minimum is not
given up before its time, and each round spans a round trip.
-/

namespace Verif.Props.C141

open Verif.Bbr Verif.Props.C142

/-! ### Specification -/

/-- The bandwidth estimated without regard to losses. -/
def best (b : Bbr) : Nat := max b.net.maxBw0 b.net.maxBw1

/-- What the sampler reports of an event. -/
def rep (b : Bbr) (now : Nat) (acked : List Acked) (lost : List Lost) : EventSample := (b.net.reported now acked lost).1

/-- Whether an event acknowledges any bytes. -/
def News (b : Bbr) (now : Nat) (acked : List Acked) (lost : List Lost) : Prop := (b.net.reported now acked lost).2.acked ≠ b.net.sampler.acked

/-- What happens to the sampler. -/
def log (F : Floats) (p : Params) (b : Bbr) : List BOp → List C138.Op
  | [] => []
  | .sent now f pn bytes el :: ops => .sent now pn bytes f el :: log F p (b.step F p (.sent now f pn bytes el)) ops
  | .event now f acked lost least :: ops =>
    .event now acked lost (best b) (b.net.bwLo.getD infinite) (b.step F p (.event now f acked lost least)).net.rounds :: .obsolete least ::
      log F p (b.step F p (.event now f acked lost least)) ops
  | .neutered pn :: ops => .neutered pn :: log F p (b.step F p (.neutered pn)) ops
  | .appLimited f :: ops =>
    if f < b.cwnd then .appLimited :: log F p (b.step F p (.appLimited f)) ops else log F p (b.step F p (.appLimited f)) ops
  | .mss m f :: ops => log F p (b.step F p (.mss m f)) ops
  | .limit m :: ops => log F p (b.step F p (.limit m)) ops

/-- A packet of the event's, acknowledged `now` after those `pre`, gives a sample of `P` against the ledger of what was sent. -/
def Measured (F : Floats) (p : Params) (b : Bbr) (t0 : Nat) (ops : List BOp) (P : Sample → Prop) : Prop :=
  ∃ pre now f acked lost least post, ops = pre ++ .event now f acked lost least :: post ∧
    C139.Src now (lost.foldl C138.Ledger.lose (C138.book t0 (log F p b pre))) acked fun _ _ x => P x

/-- The times of events are not before `t`. -/
def Since (t : Nat) (ops : List BOp) : Prop := ∀ now f acked lost least, BOp.event now f acked lost least ∈ ops → t ≤ now

/-- Nothing but packets sent in a row. -/
def Busy (ops : List BOp) : Prop :=
  ∀ op ∈ ops, match op with | .event _ _ _ _ _ => False | .sent _ f _ _ _ => 0 < f | _ => True

/-! ### One step -/

/-- A step that learns nothing. -/
theorem step_woken (F : Floats) (p : Params) (b : Bbr) (op : BOp) (hop : ∀ now f a l least, op ≠ .event now f a l least) :
    (b.step F p op).net.minRtt = b.net.minRtt ∧ b.net.minRttAt ≤ (b.step F p op).net.minRttAt ∧
    (((b.step F p op).net.maxBw0 = b.net.maxBw0 ∧ (b.step F p op).net.maxBw1 = b.net.maxBw1) ∨
      (b.net.maxBw1 ≠ 0 ∧ (b.step F p op).net.maxBw0 = b.net.maxBw1 ∧ (b.step F p op).net.maxBw1 = 0)) ∧
    ((b.step F p op).net.roundEnd = b.net.roundEnd ∨ (b.step F p op).net.roundEnd = some b.net.lastSent) ∧
    (b.step F p op).net.rounds = b.net.rounds := by
  cases op with
  | event now f a l least => exact absurd rfl (hop now f a l least)
  | sent now f pn bytes el =>
    have h := quiet_woken p b now f
    exact ⟨h.rtt, h.rttAt, h.bw, h.round, h.rounds⟩
  | appLimited f =>
    show (b.onAppLimited f).net.minRtt = _ ∧ _ ≤ (b.onAppLimited f).net.minRttAt ∧ (((b.onAppLimited f).net.maxBw0 = _ ∧ (b.onAppLimited f).net.maxBw1 = _) ∨
      (_ ∧ (b.onAppLimited f).net.maxBw0 = _ ∧ (b.onAppLimited f).net.maxBw1 = _)) ∧ ((b.onAppLimited f).net.roundEnd = _ ∨ (b.onAppLimited f).net.roundEnd = _) ∧
      (b.onAppLimited f).net.rounds = _
    unfold Bbr.onAppLimited
    split <;> exact ⟨rfl, Nat.le_refl _, Or.inl ⟨rfl, rfl⟩, Or.inl rfl, rfl⟩
  | neutered pn => exact ⟨rfl, Nat.le_refl _, Or.inl ⟨rfl, rfl⟩, Or.inl rfl, rfl⟩
  | mss m f => exact ⟨rfl, Nat.le_refl _, Or.inl ⟨rfl, rfl⟩, Or.inl rfl, rfl⟩
  | limit m => exact ⟨rfl, Nat.le_refl _, Or.inl ⟨rfl, rfl⟩, Or.inl rfl, rfl⟩

/-- What an event does. -/
structure Effect (p : Params) (b : Bbr) (now : Nat) (acked : List Acked) (lost : List Lost) (least : Nat) (b' : Bbr) : Prop where
  rtt : (b'.net.minRtt = b.net.minRtt ∧ b'.net.minRttAt = b.net.minRttAt ∧ ∀ r, (rep b now acked lost).rtt = some r → b.net.minRtt ≤ r) ∨
    ((rep b now acked lost).rtt = some b'.net.minRtt ∧ b'.net.minRtt < b.net.minRtt ∧ b'.net.minRttAt = now) ∨
    ((rep b now acked lost).rtt = some b'.net.minRtt ∧ b.net.minRttAt + p.rttPeriod ≤ now ∧ b'.net.minRttAt = now ∧ kind b' = .probeRtt)
  bw : ∃ w, (w = b.net.maxBw1 ∨ ∃ s, (rep b now acked lost).maxBw = some s ∧ w = max b.net.maxBw1 s ∧ ((rep b now acked lost).appLimited = false ∨ s > best b)) ∧
    (∀ s, (rep b now acked lost).maxBw = some s → News b now acked lost → (rep b now acked lost).appLimited = false → s ≤ w) ∧
    ((b'.net.maxBw0 = b.net.maxBw0 ∧ b'.net.maxBw1 = w) ∨ (w ≠ 0 ∧ b'.net.maxBw0 = w ∧ b'.net.maxBw1 = 0))
  rounds : b'.net.rounds = (b.net.eventRound acked).2.rounds
  round : b'.net.roundEnd = (b.net.eventRound acked).2.roundEnd ∨ b'.net.roundEnd = some b.net.lastSent
  last : b'.net.lastSent = b.net.lastSent
  sampler : b'.net.sampler = (b.net.reported now acked lost).2.removeObsolete least

theorem event_effect (F : Floats) (p : Params) (b : Bbr) (now f : Nat) (acked : List Acked) (lost : List Lost) (least : Nat) :
    Effect p b now acked lost least (b.step F p (.event now f acked lost least)) := by
  show Effect p b now acked lost least (b.onEvent F p now f acked lost least).2
  obtain ⟨a1, -, a3⟩ := event_after F p b now f acked lost least
  have hl := start_learned F p b.net (.new now b.cwnd f b.mode.probing) acked lost
  have hs := start_keep F p b.net (.new now b.cwnd f b.mode.probing) acked lost
  have he := event_ended F p b now f acked lost least
  have hf := finish_est (b.moded F p now f acked lost).2.net (b.net.start F p (.new now b.cwnd f b.mode.probing) acked lost).1 least
  have hk := finish_keep (b.moded F p now f acked lost).2.net (b.net.start F p (.new now b.cwnd f b.mode.probing) acked lost).1 least
  rw [← a3] at hf hk
  generalize (b.onEvent F p now f acked lost least).2 = b' at a1 a3 hf hk
  have hn : (b.net.start F p (.new now b.cwnd f b.mode.probing) acked lost).1.now = now := hs.now
  have hr : (b.net.start F p (.new now b.cwnd f b.mode.probing) acked lost).1.rtt = (rep b now acked lost).rtt := hs.rtt
  have hkind : kind b' = kind (b.moded F p now f acked lost).2 := by unfold kind; rw [a1]
  have hsam := hs.sampler
  have hrounds := hs.rounds
  have hre := hs.roundEnd
  have hlast := hs.last
  unfold Ended at he
  dsimp only at he
  rw [hn, hr] at he
  generalize (b.net.start F p (.new now b.cwnd f b.mode.probing) acked lost).2 = s at hl he hsam hrounds hre hlast
  generalize (b.moded F p now f acked lost).2 = d at he hf hk hkind
  clear hs hn hr
  have hl' : Learned b.net now (b.net.reported now acked lost) s := hl
  obtain ⟨f1, f2, f3, f4⟩ := hf.1
  have hround := hf.2
  have hsampler := hk.1
  have hrd := hk.2.1
  have hls := hk.2.2.2.2.2.2
  have main : ∀ m : Net, Calm s m → m.maxBw0 = d.net.maxBw0 → m.maxBw1 = d.net.maxBw1 → m.rounds = d.net.rounds → m.roundEnd = d.net.roundEnd → m.lastSent = d.net.lastSent →
      m.sampler = d.net.sampler →
      (∃ w, (w = b.net.maxBw1 ∨ ∃ s, (rep b now acked lost).maxBw = some s ∧ w = max b.net.maxBw1 s ∧ ((rep b now acked lost).appLimited = false ∨ s > best b)) ∧
        (∀ s, (rep b now acked lost).maxBw = some s → News b now acked lost → (rep b now acked lost).appLimited = false → s ≤ w) ∧
        ((b'.net.maxBw0 = b.net.maxBw0 ∧ b'.net.maxBw1 = w) ∨ (w ≠ 0 ∧ b'.net.maxBw0 = w ∧ b'.net.maxBw1 = 0))) ∧
      b'.net.rounds = (b.net.eventRound acked).2.rounds ∧
      (b'.net.roundEnd = (b.net.eventRound acked).2.roundEnd ∨ b'.net.roundEnd = some b.net.lastSent) ∧
      b'.net.lastSent = b.net.lastSent ∧ b'.net.sampler = (b.net.reported now acked lost).2.removeObsolete least := by
    intro m hm m1 m2 m3 m4 m5 m6
    refine ⟨⟨s.maxBw1, hl'.bw1, hl'.got, ?_⟩, ?_, ?_, ?_, ?_⟩
    · rw [f3, f4, ← m1, ← m2, ← hl'.bw0]
      exact hm.bw
    · rw [hrd, ← m3, hm.rounds, hrounds]
    · rw [hround, ← m4, ← hre, ← hlast]; exact hm.round
    · rw [hls, ← m5, hm.last, hlast]
    · rw [hsampler, ← m6, hm.sampler, hsam]; rfl
  rcases he with he | ⟨m, r, y, e, g1, g2, g3, g4, g5⟩
  · obtain ⟨q1, q2, q3, q4, q5⟩ := main d.net he rfl rfl rfl rfl rfl rfl
    refine ⟨?_, q1, q2, q3, q4, q5⟩
    rw [f1, f2, he.rtt, he.rttAt]
    rcases hl'.rtt with h | h
    · exact Or.inl h
    · exact Or.inr (Or.inl h)
  · obtain ⟨q1, q2, q3, q4, q5⟩ := main m g1 (by rw [g5]) (by rw [g5]) (by rw [g5]) (by rw [g5]) (by rw [g5]) (by rw [g5])
    refine ⟨?_, q1, q2, q3, q4, q5⟩
    have h1 : b'.net.minRtt = r := by rw [f1, g5]
    have h2 : b'.net.minRttAt = now := by rw [f2, g5]
    rw [h1, h2]
    rcases hl'.rtt with ⟨k1, k2, -⟩ | ⟨k1, k2, k3⟩
    · refine Or.inr (Or.inr ⟨g2, by rw [← k2]; exact g3, rfl, ?_⟩)
      rw [hkind]; unfold kind; rw [g4]
    · have : (b.net.reported now acked lost).1.rtt = some r := g2
      rw [k1] at this
      cases this
      exact Or.inr (Or.inl ⟨g2, k2, rfl⟩)

/-! ### The ledger -/

theorem log_run (F : Floats) (p : Params) : ∀ (ops : List BOp) (b : Bbr), (b.run F p ops).net.sampler = (log F p b ops).foldl C138.step b.net.sampler
  | [], _ => rfl
  | op :: ops, b => by
    have ih := log_run F p ops (b.step F p op)
    show ((b.step F p op).run F p ops).net.sampler = _
    rw [ih]
    cases op with
    | sent now f pn bytes el =>
      have h := quiet_woken p b now f
      show _ = (log F p _ ops).foldl C138.step (b.net.sampler.onSent now pn bytes f el)
      rw [← h.sampler]; rfl
    | event now f a l least =>
      have h := event_effect F p b now f a l least
      show _ = (log F p _ ops).foldl C138.step ((b.net.sampler.onEvent now a l (best b) (b.net.bwLo.getD infinite) _).2.removeObsolete least)
      rw [h.rounds, h.sampler]; rfl
    | neutered pn => rfl
    | appLimited f =>
      by_cases hf : f < b.cwnd
      · have hs : (b.step F p (.appLimited f)).net.sampler = b.net.sampler.onAppLimited := by
          show (b.onAppLimited f).net.sampler = _
          unfold Bbr.onAppLimited
          rw [if_neg (by omega)]
        rw [log, if_pos hf, hs]; rfl
      · have hs : (b.step F p (.appLimited f)).net.sampler = b.net.sampler := by
          show (b.onAppLimited f).net.sampler = _
          unfold Bbr.onAppLimited
          rw [if_pos (by omega)]
        rw [log, if_neg hf, hs]
    | mss m f => rfl
    | limit m => rfl

theorem log_legal (F : Floats) (p : Params) : ∀ (ops : List BOp) (n : Nat) (b : Bbr), Numbered n ops → C138.Legal n b.net.rounds (log F p b ops)
  | [], _, _, _ => trivial
  | op :: ops, n, b, hn => by
    have hr : (∀ now f a l least, op ≠ .event now f a l least) → (b.step F p op).net.rounds = b.net.rounds := fun h => (step_woken F p b op h).2.2.2.2
    cases op with
    | sent now f pn bytes el =>
      refine ⟨hn.1, ?_⟩
      have ih := log_legal F p ops (pn + 1) (b.step F p (.sent now f pn bytes el)) hn.2
      rw [hr (fun _ _ _ _ _ h => by cases h)] at ih
      exact ih
    | event now f a l least =>
      have h := event_effect F p b now f a l least
      refine ⟨?_, log_legal F p ops n (b.step F p (.event now f a l least)) hn⟩
      rw [h.rounds]
      exact (eventRound_keep b.net a).2.1
    | neutered pn =>
      have ih := log_legal F p ops n (b.step F p (.neutered pn)) hn
      exact ih
    | appLimited f =>
      have ih := log_legal F p ops n (b.step F p (.appLimited f)) hn
      rw [hr (fun _ _ _ _ _ h => by cases h)] at ih
      unfold log
      split
      · exact ih
      · exact ih
    | mss m f => exact log_legal F p ops n (b.step F p (.mss m f)) hn
    | limit m => exact log_legal F p ops n (b.step F p (.limit m)) hn

/-- **C141**, ledger: the controller's sampler is one of C138, so C138 to C140 hold of it. -/
theorem ledger (F : Floats) (p : Params) (initial max mss rtt t0 factor : Nat) (ops : List BOp) (hn : Numbered 0 ops) :
    ((Bbr.new F p initial max mss rtt t0 factor).run F p ops).net.sampler =
      C138.run p.heightWindow p.avoid p.fix t0 (log F p (.new F p initial max mss rtt t0 factor) ops) ∧
    C138.Legal 0 0 (log F p (.new F p initial max mss rtt t0 factor) ops) :=
  ⟨log_run F p ops _, log_legal F p ops 0 (.new F p initial max mss rtt t0 factor) hn⟩

theorem numbered_left : ∀ (xs : List BOp) {n : Nat} {ys : List BOp}, Numbered n (xs ++ ys) → Numbered n xs
  | [], _, _, _ => trivial
  | op :: xs, n, ys, h => by
    cases op with
    | sent now f pn bytes el => exact ⟨h.1, numbered_left xs h.2⟩
    | event now f a l least => exact numbered_left xs (n := n) h
    | neutered pn => exact numbered_left xs (n := n) h
    | appLimited f => exact numbered_left xs (n := n) h
    | mss m f => exact numbered_left xs (n := n) h
    | limit m => exact numbered_left xs (n := n) h

/-! ### Where the estimates come from -/

/-- An event of the operations reported `Q`. -/
def Reported (F : Floats) (p : Params) (b : Bbr) (ops : List BOp) (Q : EventSample → Prop) : Prop :=
  ∃ pre now f acked lost least post, ops = pre ++ .event now f acked lost least :: post ∧ Q (rep (b.run F p pre) now acked lost)

theorem Reported.cons {F : Floats} {p : Params} {b : Bbr} {op : BOp} {ops : List BOp} {Q : EventSample → Prop} (h : Reported F p (b.step F p op) ops Q) :
    Reported F p b (op :: ops) Q := by
  obtain ⟨pre, now, f, a, l, least, post, h1, h2⟩ := h
  exact ⟨op :: pre, now, f, a, l, least, post, by rw [h1]; rfl, h2⟩

theorem rtt_reported (F : Floats) (p : Params) : ∀ (ops : List BOp) (b : Bbr),
    (b.run F p ops).net.minRtt = b.net.minRtt ∨ Reported F p b ops (fun e => e.rtt = some (b.run F p ops).net.minRtt)
  | [], _ => Or.inl rfl
  | op :: ops, b => by
    have hrun : b.run F p (op :: ops) = (b.step F p op).run F p ops := rfl
    rw [hrun]
    rcases rtt_reported F p ops (b.step F p op) with h | h
    · by_cases hop : ∃ now f a l least, op = .event now f a l least
      · obtain ⟨now, f, a, l, least, rfl⟩ := hop
        rcases (event_effect F p b now f a l least).rtt with k | k | k
        · left; rw [h, k.1]
        · right; exact ⟨[], now, f, a, l, least, ops, rfl, by rw [h]; exact k.1⟩
        · right; exact ⟨[], now, f, a, l, least, ops, rfl, by rw [h]; exact k.1⟩
      · left
        rw [h, (step_woken F p b op (fun now f a l least he => hop ⟨now, f, a, l, least, he⟩)).1]
    · exact Or.inr h.cons

theorem bw_reported (F : Floats) (p : Params) : ∀ (ops : List BOp) (b : Bbr) (x : Nat),
    (x = (b.run F p ops).net.maxBw0 ∨ x = (b.run F p ops).net.maxBw1) →
    x = 0 ∨ (x = b.net.maxBw0 ∨ x = b.net.maxBw1) ∨ Reported F p b ops (fun e => e.maxBw = some x)
  | [], _, _, h => Or.inr (Or.inl h)
  | op :: ops, b, x, hx => by
    rcases bw_reported F p ops (b.step F p op) x hx with h | h | h
    · exact Or.inl h
    · by_cases hop : ∃ now f a l least, op = .event now f a l least
      · obtain ⟨now, f, a, l, least, rfl⟩ := hop
        obtain ⟨w, h1, -, h2⟩ := (event_effect F p b now f a l least).bw
        have hw : x = w → (x = b.net.maxBw0 ∨ x = b.net.maxBw1) ∨ Reported F p b (.event now f a l least :: ops) (fun e => e.maxBw = some x) := by
          intro hxw
          rcases h1 with h1 | ⟨s, s1, s2, -⟩
          · exact Or.inl (Or.inr (hxw.trans h1))
          · by_cases hs : s ≤ b.net.maxBw1
            · left; right; rw [hxw, s2]; exact Nat.max_eq_left hs
            · right
              refine ⟨[], now, f, a, l, least, ops, rfl, ?_⟩
              show (rep b now a l).maxBw = some x
              rw [s1, hxw, s2, Nat.max_eq_right (by omega)]
        rcases h2 with ⟨h2, h3⟩ | ⟨-, h2, h3⟩
        · rcases h with h | h
          · exact Or.inr (Or.inl (Or.inl (h.trans h2)))
          · exact Or.inr (hw (h.trans h3))
        · rcases h with h | h
          · exact Or.inr (hw (h.trans h2))
          · exact Or.inl (h.trans h3)
      · rcases (step_woken F p b op (fun now f a l least he => hop ⟨now, f, a, l, least, he⟩)).2.2.1 with ⟨k1, k2⟩ | ⟨-, k1, k2⟩
        · right; left
          rw [k1, k2] at h
          exact h
        · rcases h with h | h
          · exact Or.inr (Or.inl (Or.inr (h.trans k1)))
          · exact Or.inl (h.trans k2)
    · exact Or.inr (Or.inr h.cons)

/-- The event of a controller as one of the sampler. -/
theorem rep_eq (b : Bbr) (now : Nat) (acked : List Acked) (lost : List Lost) :
    rep b now acked lost = C139.report b.net.sampler ⟨now, acked, lost, best b, b.net.bwLo.getD infinite, (b.net.eventRound acked).2.rounds⟩ := rfl

/-- **C141**, round trip: the minimum is the one configured, or the time from the sending of a packet to its acknowledgement. -/
theorem rtt_measured (F : Floats) (p : Params) (initial max mss rtt t0 factor : Nat) (ops : List BOp) (hn : Numbered 0 ops) :
    ((Bbr.new F p initial max mss rtt t0 factor).run F p ops).net.minRtt = rtt ∨
    Measured F p (.new F p initial max mss rtt t0 factor) t0 ops
      (fun x => x.rtt = ((Bbr.new F p initial max mss rtt t0 factor).run F p ops).net.minRtt) := by
  rcases rtt_reported F p ops (.new F p initial max mss rtt t0 factor) with h | ⟨pre, now, f, a, l, least, post, h1, h2⟩
  · exact Or.inl h
  · right
    obtain ⟨g1, g2⟩ := ledger F p initial max mss rtt t0 factor pre (numbered_left pre (by rw [← h1]; exact hn))
    refine ⟨pre, now, f, a, l, least, post, h1, ?_⟩
    rw [rep_eq] at h2
    have hreach := C139.reached p.heightWindow p.avoid p.fix t0 _ g2
    rw [← g1] at hreach
    exact C139.rtt_measured hreach _ _ h2

/-- **C141**, bandwidth: the estimate is zero or the bandwidth of a packet sent and acknowledged. -/
theorem bw_measured (F : Floats) (p : Params) (initial max mss rtt t0 factor : Nat) (ops : List BOp) (hn : Numbered 0 ops) :
    best ((Bbr.new F p initial max mss rtt t0 factor).run F p ops) = 0 ∨
    Measured F p (.new F p initial max mss rtt t0 factor) t0 ops
      (fun x => x.bandwidth = best ((Bbr.new F p initial max mss rtt t0 factor).run F p ops)) := by
  have hx : best ((Bbr.new F p initial max mss rtt t0 factor).run F p ops) = ((Bbr.new F p initial max mss rtt t0 factor).run F p ops).net.maxBw0 ∨
      best ((Bbr.new F p initial max mss rtt t0 factor).run F p ops) = ((Bbr.new F p initial max mss rtt t0 factor).run F p ops).net.maxBw1 := by
    unfold best
    omega
  rcases bw_reported F p ops (.new F p initial max mss rtt t0 factor) _ hx with h | h | ⟨pre, now, f, a, l, least, post, h1, h2⟩
  · exact Or.inl h
  · rcases h with h | h <;> exact Or.inl h
  · right
    obtain ⟨g1, g2⟩ := ledger F p initial max mss rtt t0 factor pre (numbered_left pre (by rw [← h1]; exact hn))
    refine ⟨pre, now, f, a, l, least, post, h1, ?_⟩
    rw [rep_eq] at h2
    have hreach := C139.reached p.heightWindow p.avoid p.fix t0 _ g2
    rw [← g1] at hreach
    obtain ⟨q1, q2, q3, x, q4, q5, q6, -⟩ := C139.measured hreach _ _ h2
    exact ⟨q1, q2, q3, x, q4, q5, q6⟩

/-! ### An event -/

/-- **C141**, minimum: after an event it is not above the round trip the event reports. -/
theorem rtt_least (F : Floats) (p : Params) (b : Bbr) (now f : Nat) (acked : List Acked) (lost : List Lost) (least r : Nat)
    (hr : (rep b now acked lost).rtt = some r) : (b.step F p (.event now f acked lost least)).net.minRtt ≤ r := by
  rcases (event_effect F p b now f acked lost least).rtt with ⟨k1, -, k2⟩ | ⟨k, -⟩ | ⟨k, -⟩
  · rw [k1]; exact k2 r hr
  · rw [hr] at k; cases k; exact Nat.le_refl _
  · rw [hr] at k; cases k; exact Nat.le_refl _

/-- **C141**, minimum raised: only by an event that leads to ProbeRTT, to the round trip it reports. -/
theorem rtt_raised (F : Floats) (p : Params) (b : Bbr) (op : BOp) (h : b.net.minRtt < (b.step F p op).net.minRtt) :
    ∃ now f acked lost least, op = .event now f acked lost least ∧ (rep b now acked lost).rtt = some (b.step F p op).net.minRtt ∧
      kind (b.step F p op) = .probeRtt ∧ b.net.minRttAt + p.rttPeriod ≤ now := by
  by_cases hop : ∃ now f a l least, op = .event now f a l least
  · obtain ⟨now, f, a, l, least, rfl⟩ := hop
    refine ⟨now, f, a, l, least, rfl, ?_⟩
    rcases (event_effect F p b now f a l least).rtt with ⟨k, -⟩ | ⟨-, k, -⟩ | ⟨k1, k2, -, k3⟩
    · rw [k] at h; exact absurd h (Nat.lt_irrefl _)
    · omega
    · exact ⟨k1, k3, k2⟩
  · rw [(step_woken F p b op (fun now f a l least he => hop ⟨now, f, a, l, least, he⟩)).1] at h
    exact absurd h (Nat.lt_irrefl _)

theorem at_kept (F : Floats) (p : Params) (t : Nat) : ∀ (ops : List BOp) (b : Bbr), t ≤ b.net.minRttAt → Since t ops → t ≤ (b.run F p ops).net.minRttAt
  | [], _, h, _ => h
  | op :: ops, b, h, hs => by
    refine at_kept F p t ops (b.step F p op) ?_ (fun now f a l least hm => hs now f a l least (List.mem_cons_of_mem _ hm))
    by_cases hop : ∃ now f a l least, op = .event now f a l least
    · obtain ⟨now, f, a, l, least, rfl⟩ := hop
      have ht := hs now f a l least (List.mem_cons_self ..)
      rcases (event_effect F p b now f a l least).rtt with ⟨-, k, -⟩ | ⟨-, -, k⟩ | ⟨-, -, k, -⟩
      · rw [k]; exact h
      · rw [k]; exact ht
      · rw [k]; exact ht
    · exact Nat.le_trans h (step_woken F p b op (fun now f a l least he => hop ⟨now, f, a, l, least, he⟩)).2.1

/-- **C141**, period: a minimum found at an event is not given up for a greater one within the period (10 s). -/
theorem rtt_period (F : Floats) (p : Params) (b : Bbr) (now f : Nat) (acked : List Acked) (lost : List Lost) (least : Nat) (ops : List BOp)
    (now' f' : Nat) (acked' : List Acked) (lost' : List Lost) (least' : Nat)
    (h1 : (b.step F p (.event now f acked lost least)).net.minRtt ≠ b.net.minRtt) (hs : Since now ops)
    (h2 : ((b.step F p (.event now f acked lost least)).run F p ops).net.minRtt <
      (((b.step F p (.event now f acked lost least)).run F p ops).step F p (.event now' f' acked' lost' least')).net.minRtt) :
    now + p.rttPeriod ≤ now' := by
  have ha : now ≤ (b.step F p (.event now f acked lost least)).net.minRttAt := by
    rcases (event_effect F p b now f acked lost least).rtt with ⟨k, -⟩ | ⟨-, -, k⟩ | ⟨-, -, k, -⟩
    · exact absurd k h1
    · rw [k]; exact Nat.le_refl _
    · rw [k]; exact Nat.le_refl _
  have hb := at_kept F p now ops _ ha hs
  obtain ⟨n, f, a, l, q, k1, -, -, k2⟩ := rtt_raised F p _ _ h2
  cases k1
  omega

/-- **C141**, best: a bandwidth that was not limited by the application is not ignored. -/
theorem bw_least (F : Floats) (p : Params) (b : Bbr) (now f : Nat) (acked : List Acked) (lost : List Lost) (least s : Nat)
    (hs : (rep b now acked lost).maxBw = some s) (hn : News b now acked lost) (hl : (rep b now acked lost).appLimited = false) :
    s ≤ best (b.step F p (.event now f acked lost least)) := by
  obtain ⟨w, -, h1, h2⟩ := (event_effect F p b now f acked lost least).bw
  have := h1 s hs hn hl
  unfold best
  rcases h2 with ⟨-, k⟩ | ⟨-, k, -⟩ <;> omega

/-- **C141**, raised: the estimate grows only to the bandwidth reported. -/
theorem bw_raised (F : Floats) (p : Params) (b : Bbr) (op : BOp) (h : best b < best (b.step F p op)) :
    ∃ now f acked lost least, op = .event now f acked lost least ∧ (rep b now acked lost).maxBw = some (best (b.step F p op)) := by
  unfold best at h
  by_cases hop : ∃ now f a l least, op = .event now f a l least
  · obtain ⟨now, f, a, l, least, rfl⟩ := hop
    refine ⟨now, f, a, l, least, rfl, ?_⟩
    obtain ⟨w, h1, -, h2⟩ := (event_effect F p b now f a l least).bw
    rcases h1 with h1 | ⟨s, h1, h3, -⟩
    · rcases h2 with ⟨k1, k2⟩ | ⟨-, k1, k2⟩ <;> omega
    · rw [h1]
      unfold best
      rcases h2 with ⟨k1, k2⟩ | ⟨-, k1, k2⟩
      · exact congrArg some (by omega)
      · exact congrArg some (by omega)
  · rcases (step_woken F p b op (fun now f a l least he => hop ⟨now, f, a, l, least, he⟩)).2.2.1 with ⟨k1, k2⟩ | ⟨-, k1, k2⟩ <;> omega

/-! ### Rounds -/

/-- Rounds from number `n1` on. -/
structure RInv (n1 n : Nat) (b : Bbr) : Prop where
  last : n ≤ b.net.lastSent + 1
  from1 : n1 ≤ n
  round : ∃ e, b.net.roundEnd = some e ∧ n1 ≤ e + 1

theorem rinv_step {F : Floats} {p : Params} {n1 n : Nat} {b : Bbr} (h : RInv n1 n b) (op : BOp) (hn : Numbered n [op]) : RInv n1 (nextPn n op) (b.step F p op) := by
  have hl := h.last
  have hf := h.from1
  obtain ⟨e, he1, he2⟩ := h.round
  by_cases hop : ∃ now f a l least, op = .event now f a l least
  · obtain ⟨now, f, a, l, least, rfl⟩ := hop
    have he := event_effect F p b now f a l least
    refine ⟨by rw [he.last]; exact hl, hf, ?_⟩
    have hr : ∃ e, (b.net.eventRound a).2.roundEnd = some e ∧ n1 ≤ e + 1 := by
      unfold Net.eventRound
      split
      · unfold Net.ackRound
        rw [he1]
        dsimp only
        split
        · exact ⟨e, he1, he2⟩
        · exact ⟨_, rfl, by omega⟩
      · exact ⟨e, he1, he2⟩
    rcases he.round with k | k
    · rw [k]; exact hr
    · exact ⟨_, k, by omega⟩
  · have hs := (step_woken F p b op (fun now f a l least he => hop ⟨now, f, a, l, least, he⟩)).2.2.2.1
    have hround : ∃ e, (b.step F p op).net.roundEnd = some e ∧ n1 ≤ e + 1 := by
      rcases hs with k | k
      · exact ⟨e, k.trans he1, he2⟩
      · exact ⟨_, k, by omega⟩
    cases op with
    | event now f a l least => exact absurd ⟨now, f, a, l, least, rfl⟩ hop
    | sent now f pn bytes el =>
      have := hn.1
      exact ⟨Nat.le_refl _, (by show n1 ≤ pn + 1; omega), hround⟩
    | neutered pn => exact ⟨hl, hf, hround⟩
    | appLimited f =>
      refine ⟨?_, hf, hround⟩
      show n ≤ (b.onAppLimited f).net.lastSent + 1
      unfold Bbr.onAppLimited
      split <;> exact hl
    | mss m f => exact ⟨hl, hf, hround⟩
    | limit m => exact ⟨hl, hf, hround⟩

theorem rinv_run {F : Floats} {p : Params} {n1 : Nat} : ∀ (ops : List BOp) {n : Nat} {b : Bbr}, RInv n1 n b → Numbered n ops → RInv n1 (nextPns n ops) (b.run F p ops)
  | [], _, _, h, _ => h
  | op :: ops, n, b, h, hn => by
    have h1 : Numbered n [op] := by
      cases op <;> first | exact ⟨hn.1, trivial⟩ | exact trivial
    have h2 : Numbered (nextPn n op) ops := by
      cases op <;> first | exact hn.2 | exact hn
    exact rinv_run ops (rinv_step h op h1) h2

/-- The numbers and the end of a round, from the start. -/
structure LInv (n : Nat) (b : Bbr) : Prop where
  last : n ≤ b.net.lastSent + 1
  less : b.net.lastSent < n ∨ b.net.lastSent = 0
  round : ∀ e, b.net.roundEnd = some e → e < n ∨ e = 0

theorem linv_step {F : Floats} {p : Params} {n : Nat} {b : Bbr} (h : LInv n b) (op : BOp) (hn : Numbered n [op]) : LInv (nextPn n op) (b.step F p op) := by
  have hl := h.last
  have hs := h.less
  have hr := h.round
  by_cases hop : ∃ now f a l least, op = .event now f a l least
  · obtain ⟨now, f, a, l, least, rfl⟩ := hop
    have he := event_effect F p b now f a l least
    refine ⟨by rw [he.last]; exact hl, by rw [he.last]; exact hs, ?_⟩
    have hq : ∀ e, (b.net.eventRound a).2.roundEnd = some e → e < n ∨ e = 0 := by
      intro e
      unfold Net.eventRound
      split
      · unfold Net.ackRound
        split
        · split
          · exact hr e
          · intro h; cases h; exact hs
        · intro h; cases h; exact hs
      · exact hr e
    intro e
    rcases he.round with k | k
    · rw [k]; exact hq e
    · rw [k]; intro h; cases h; exact hs
  · have hw := (step_woken F p b op (fun now f a l least he => hop ⟨now, f, a, l, least, he⟩)).2.2.2.1
    have hround : ∀ e, (b.step F p op).net.roundEnd = some e → e < n ∨ e = 0 := by
      intro e he
      rcases hw with k | k
      · rw [k] at he; exact hr e he
      · rw [k] at he; cases he; exact hs
    cases op with
    | event now f a l least => exact absurd ⟨now, f, a, l, least, rfl⟩ hop
    | sent now f pn bytes el =>
      have := hn.1
      refine ⟨Nat.le_refl _, Or.inl (Nat.lt_succ_self pn), fun e he => ?_⟩
      have := hround e he
      show e < pn + 1 ∨ e = 0
      omega
    | neutered pn => exact ⟨hl, hs, hround⟩
    | appLimited f =>
      refine ⟨?_, ?_, hround⟩
      · show n ≤ (b.onAppLimited f).net.lastSent + 1
        unfold Bbr.onAppLimited
        split <;> exact hl
      · show (b.onAppLimited f).net.lastSent < n ∨ (b.onAppLimited f).net.lastSent = 0
        unfold Bbr.onAppLimited
        split <;> exact hs
    | mss m f => exact ⟨hl, hs, hround⟩
    | limit m => exact ⟨hl, hs, hround⟩

theorem linv_run {F : Floats} {p : Params} : ∀ (ops : List BOp) {n : Nat} {b : Bbr}, LInv n b → Numbered n ops → LInv (nextPns n ops) (b.run F p ops)
  | [], _, _, h, _ => h
  | op :: ops, n, b, h, hn => by
    have h1 : Numbered n [op] := by
      cases op <;> first | exact ⟨hn.1, trivial⟩ | exact trivial
    have h2 : Numbered (nextPn n op) ops := by
      cases op <;> first | exact hn.2 | exact hn
    exact linv_run ops (linv_step h op h1) h2

theorem reached_linv {F : Floats} {p : Params} {n : Nat} {b : Bbr} (h : Reached F p n b) : LInv n b := by
  obtain ⟨i, m, s, r, t, f, ops, h1, -, h3, h4⟩ := h
  rw [h3, h4]
  exact linv_run ops ⟨Nat.zero_le _, Or.inr rfl, fun e he => by cases he⟩ h1

/-- **C141**, rounds one by one: an event ends one round at most, and only if it acknowledges something. -/
theorem round_step (F : Floats) (p : Params) (b : Bbr) (op : BOp) :
    (b.step F p op).net.rounds = b.net.rounds ∨
    (b.step F p op).net.rounds = b.net.rounds + 1 ∧ ∃ now f acked lost least, op = .event now f acked lost least ∧ acked ≠ [] := by
  by_cases hop : ∃ now f a l least, op = .event now f a l least
  · obtain ⟨now, f, a, l, least, rfl⟩ := hop
    rw [(event_effect F p b now f a l least).rounds]
    have hne : ∀ x, a.getLast? = some x → a ≠ [] := by
      intro x hx hn
      rw [hn] at hx
      cases hx
    unfold Net.eventRound
    split
    · next x hx =>
      unfold Net.ackRound
      split
      · split
        · exact Or.inl rfl
        · exact Or.inr ⟨rfl, now, f, a, l, least, rfl, hne x hx⟩
      · exact Or.inr ⟨rfl, now, f, a, l, least, rfl, hne x hx⟩
    · exact Or.inl rfl
  · exact Or.inl (step_woken F p b op (fun now f a l least he => hop ⟨now, f, a, l, least, he⟩)).2.2.2.2

/-- **C141**, a round is a round trip: of two events that end rounds, the second acknowledges a packet sent after the first. -/
theorem rounds_apart {F : Floats} {p : Params} {n : Nat} {b : Bbr} (h : Reached F p n b) (now f : Nat) (acked : List Acked) (lost : List Lost) (least : Nat)
    (ops : List BOp) (hn : Numbered n ops) (now' f' : Nat) (acked' : List Acked) (lost' : List Lost) (least' : Nat)
    (h1 : (b.step F p (.event now f acked lost least)).net.rounds ≠ b.net.rounds)
    (h2 : (((b.step F p (.event now f acked lost least)).run F p ops).step F p (.event now' f' acked' lost' least')).net.rounds ≠
      ((b.step F p (.event now f acked lost least)).run F p ops).net.rounds) :
    ∃ pn, acked'.getLast? = some pn ∧ n ≤ pn := by
  have hl := reached_linv h
  have he := event_effect F p b now f acked lost least
  have hlast := hl.last
  have hinv : RInv n n (b.step F p (.event now f acked lost least)) := by
    refine ⟨by rw [he.last]; exact hlast, Nat.le_refl _, ?_⟩
    rcases he.round with k | k
    · rw [he.rounds] at h1
      rw [k]
      unfold Net.eventRound at h1 ⊢
      cases ha : acked.getLast? with
      | none => rw [ha] at h1; exact absurd rfl h1
      | some x =>
        rw [ha] at h1
        dsimp only at h1 ⊢
        unfold Net.ackRound at h1 ⊢
        cases hr : b.net.roundEnd with
        | none => exact ⟨_, rfl, by omega⟩
        | some e =>
          rw [hr] at h1
          dsimp only at h1 ⊢
          by_cases hx : x ≤ e
          · rw [if_pos hx] at h1; exact absurd rfl h1
          · rw [if_neg hx]; exact ⟨_, rfl, by omega⟩
    · exact ⟨_, k, by omega⟩
  have hrun := rinv_run (F := F) (p := p) ops hinv hn
  generalize (b.step F p (.event now f acked lost least)).run F p ops = d at h2 hrun
  rw [(event_effect F p d now' f' acked' lost' least').rounds] at h2
  obtain ⟨e, he1, he2⟩ := hrun.round
  unfold Net.eventRound at h2
  cases ha : acked'.getLast? with
  | none => rw [ha] at h2; exact absurd rfl h2
  | some x =>
    rw [ha] at h2
    dsimp only at h2
    unfold Net.ackRound at h2
    rw [he1] at h2
    dsimp only at h2
    by_cases hx : x ≤ e
    · rw [if_pos hx] at h2; exact absurd rfl h2
    · exact ⟨x, rfl, Nat.le_trans he2 (Nat.lt_of_not_le hx)⟩

theorem busy_round (F : Floats) (p : Params) : ∀ (ops : List BOp) (b : Bbr), Busy ops → (b.run F p ops).net.roundEnd = b.net.roundEnd
  | [], _, _ => rfl
  | op :: ops, b, h => by
    have ih := busy_round F p ops (b.step F p op) (fun o ho => h o (List.mem_cons_of_mem _ ho))
    show ((b.step F p op).run F p ops).net.roundEnd = _
    rw [ih]
    have hop := h op (List.mem_cons_self ..)
    cases op with
    | event now f a l least => exact absurd hop id
    | sent now f pn bytes el =>
      show (b.onSent p now f pn bytes el).net.roundEnd = _
      unfold Bbr.onSent
      have : ¬f = 0 := by
        have h' : 0 < f := hop
        omega
      dsimp only
      rw [if_neg this]
      rfl
    | neutered pn => rfl
    | appLimited f =>
      show (b.onAppLimited f).net.roundEnd = _
      unfold Bbr.onAppLimited
      split <;> rfl
    | mss m f => rfl
    | limit m => rfl

/-- **C141**, rounds go on: once packets have been sent, the acknowledgement of one sent later, in a row, ends the round. -/
theorem round_due {F : Floats} {p : Params} {n : Nat} {b : Bbr} (h : Reached F p n b) (h0 : 0 < n) (ops : List BOp) (hb : Busy ops)
    (now f : Nat) (acked : List Acked) (lost : List Lost) (least pn : Nat) (ha : acked.getLast? = some pn) (hp : n ≤ pn) :
    ((b.run F p ops).step F p (.event now f acked lost least)).net.rounds = (b.run F p ops).net.rounds + 1 := by
  have hl := reached_linv h
  rw [(event_effect F p _ now f acked lost least).rounds]
  have hr := busy_round F p ops b hb
  generalize b.run F p ops = d at hr
  unfold Net.eventRound
  rw [ha]
  dsimp only
  unfold Net.ackRound
  rw [hr]
  cases he : b.net.roundEnd with
  | none => rfl
  | some e =>
    have := hl.round e he
    dsimp only
    rw [if_neg (by omega)]

/-! ### Examples -/

/-- The example's run: a flight of ten packets after 40 ms. -/
def path : List BOp := flight 0 40000000 0 10

/-- It reports 40 ms and 1.2 MB/s or so, which become the estimates, and ends a round. -/
example : Numbered 0 path ∧ Fits .sample .default .sample path ∧ (Bbr.sample.run .sample .default path).net.minRtt = 40000000 ∧
    0 < best (Bbr.sample.run .sample .default path) ∧ (Bbr.sample.run .sample .default path).net.rounds = 1 := by decide +kernel

/-- After 2 flights a second round has ended; the acknowledgement of packets sent before the first end does not end another. -/
example : (Bbr.sample.run .sample .default (flights 0 40000000 0 10 2)).net.rounds = 2 ∧
    (Bbr.sample.run .sample .default (burst 0 0 0 10 ++ [.event 40000000 12000 [0, 1, 2] [] 3, .event 41000000 8400 [3, 4, 5] [] 6])).net.rounds = 1 := by
  decide +kernel

/-- A longer round trip does not replace the minimum. -/
example : (Bbr.sample.run .sample .default (path ++ flight 40000000 90000000 10 10)).net.minRtt = 40000000 := by decide +kernel

/-- Samples limited by the application do not lower the estimate and count only if greater. -/
example : let b := Bbr.sample.run .sample .default (path ++ [.appLimited 0])
    best (b.run .sample .default (flight 50000000 90000000 10 2)) = best b ∧ best (b.run .sample .default (flight 50000000 10000000 10 10)) > best b := by
  decide +kernel

/-- More than ten seconds later the minimum is given up for a greater one: ProbeRTT. -/
def late : List BOp := flights 0 40000000 0 10 3 ++ flight 120000000 12000000000 30 10

example : Numbered 0 late ∧ Fits .sample .default .sample late ∧ (Bbr.sample.run .sample .default (late.take 43)).net.minRtt = 40000000 ∧
    (Bbr.sample.run .sample .default late).net.minRtt = 12000000000 ∧ kind (Bbr.sample.run .sample .default late) = .probeRtt := by decide +kernel

end Verif.Props.C141
