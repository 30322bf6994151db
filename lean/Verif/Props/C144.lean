import Verif.Props.C143

/-!
C144. ProbeRTT: the wait begins when the bytes in flight have fallen to half the product of
bandwidth and delay, and ends 200 ms later. That they fall so far is not ensured: the window
is not lowered below the initial one.
-/

namespace Verif.Props.C144

open Verif.Bbr Verif.Props.C142 Verif.Props.C143

/-! ### Specification -/

/-- In ProbeRTT: until when, if that is known. -/
def until? (b : Bbr) : Option (Option Nat) :=
  match b.mode with
  | .probeRtt _ e => some e
  | _ => none

/-- Half the product of the maximum bandwidth and the minimum round trip, by default. -/
def goal (F : Floats) (p : Params) (n : Net) : Nat := bytesPer (F.mulBw (max n.maxBw0 n.maxBw1) p.rttFraction) n.minRtt

/-- Packets are sent within the window. -/
def Obeys (F : Floats) (p : Params) (b : Bbr) : List BOp → Bool
  | [] => true
  | op :: ops => (match op with | .sent _ f _ bytes _ => decide (f + bytes ≤ b.cwnd) | _ => true) && Obeys F p (b.step F p op) ops

/-- ProbeRTT all along. -/
def Always (F : Floats) (p : Params) (b : Bbr) : List BOp → Bool
  | [] => (until? b).isSome
  | op :: ops => (until? b).isSome && Always F p (b.step F p op) ops

/-- The claim: a sender that obeys the window leaves ProbeRTT within ten round trips. -/
def Leaves (F : Floats) (p : Params) : Prop :=
  ∀ (initial max mss rtt now factor : Nat) (ops ops' : List BOp), Numbered 0 (ops ++ ops') → Fits F p (.new F p initial max mss rtt now factor) (ops ++ ops') →
    Obeys F p (.new F p initial max mss rtt now factor) (ops ++ ops') = true →
    ((Bbr.new F p initial max mss rtt now factor).run F p ops).net.rounds + 10 ≤ ((Bbr.new F p initial max mss rtt now factor).run F p (ops ++ ops')).net.rounds →
    Always F p ((Bbr.new F p initial max mss rtt now factor).run F p ops) ops' = false

/-! ### Proof -/

theorem loop_probeRtt (F : Floats) (p : Params) (c : CEvent) (k : Nat) (b : Bbr) (y : Cycle) (e : Option Nat) (h : b.mode = .probeRtt y e)
    (hs : (onProbeRtt F p b.net y e c).1.kind = 3) : (b.loop F p c (k + 1)).2.mode = (onProbeRtt F p b.net y e c).1 := by
  have hd : (b.doEvent F p c).mode = (onProbeRtt F p b.net y e c).1 := by
    unfold Bbr.doEvent
    rw [h]
  unfold Bbr.loop
  rw [if_pos (by rw [hd, hs, h]; rfl)]
  exact hd

/-! ### Theorems -/

/-- Without an end in sight, an event that leaves at most the goal in flight sets the end; any other leaves things as they are. -/
theorem waits (F : Floats) (p : Params) (b : Bbr) (now inFlight : Nat) (acked : List Acked) (lost : List Lost) (least : Nat) (h : until? b = some none) :
    let s := seen F p b now inFlight acked lost
    until? (b.onEvent F p now inFlight acked lost least).2 = some (if s.1.inFlight ≤ goal F p s.2 then some (now + p.rttDuration) else none) := by
  dsimp only
  obtain ⟨y, hy⟩ : ∃ y, b.mode = .probeRtt y none := by
    unfold until? at h
    split at h
    · next y e he => simp only [Option.some.injEq] at h; exact ⟨y, by rw [he, h]⟩
    · cases h
  obtain ⟨a1, -, -⟩ := event_after F p b now inFlight acked lost least
  have hl := loop_probeRtt F p (seen F p b now inFlight acked lost).1 3 { b with net := (seen F p b now inFlight acked lost).2 } y none hy rfl
  have hm : (b.moded F p now inFlight acked lost).2.mode = _ := hl
  have hn := (start_keep F p b.net (.new now b.cwnd inFlight b.mode.probing) acked lost).now
  unfold until?
  rw [a1, hm]
  unfold onProbeRtt
  dsimp only
  have hg : rttTarget F p (seen F p b now inFlight acked lost).2 = goal F p (seen F p b now inFlight acked lost).2 := rfl
  have hn' : (seen F p b now inFlight acked lost).1.now = now := hn
  rw [hg, hn']

/-- Until the end ProbeRTT stays. -/
theorem stays (F : Floats) (p : Params) (b : Bbr) (now inFlight : Nat) (acked : List Acked) (lost : List Lost) (least t : Nat) (h : until? b = some (some t)) (ht : now ≤ t) :
    until? (b.onEvent F p now inFlight acked lost least).2 = some (some t) := by
  obtain ⟨y, hy⟩ : ∃ y, b.mode = .probeRtt y (some t) := by
    unfold until? at h
    split at h
    · next y e he => simp only [Option.some.injEq] at h; exact ⟨y, by rw [he, h]⟩
    · cases h
  obtain ⟨a1, -, -⟩ := event_after F p b now inFlight acked lost least
  have hn : (seen F p b now inFlight acked lost).1.now = now := (start_keep F p b.net (.new now b.cwnd inFlight b.mode.probing) acked lost).now
  have ho : onProbeRtt F p (seen F p b now inFlight acked lost).2 y (some t) (seen F p b now inFlight acked lost).1 = (.probeRtt y (some t), (seen F p b now inFlight acked lost).2) := by
    unfold onProbeRtt
    dsimp only
    rw [if_neg (by rw [hn]; omega)]
  have hl := loop_probeRtt F p (seen F p b now inFlight acked lost).1 3 { b with net := (seen F p b now inFlight acked lost).2 } y (some t) hy (by rw [ho]; rfl)
  have hm : (b.moded F p now inFlight acked lost).2.mode = _ := hl
  unfold until?
  rw [a1, hm, ho]

/-- After the end the next event leads to ProbeBW. -/
theorem ends {F : Floats} {p : Params} {n : Nat} {b : Bbr} (hr : Reached F p n b) (now inFlight : Nat) (acked : List Acked) (lost : List Lost) (least t : Nat)
    (hov : Small b now acked lost) (h : until? b = some (some t)) (ht : t < now) : kind (b.onEvent F p now inFlight acked lost least).2 = .probeBw := by
  obtain ⟨y, hy⟩ : ∃ y, b.mode = .probeRtt y (some t) := by
    unfold until? at h
    split at h
    · next y e he => simp only [Option.some.injEq] at h; exact ⟨y, by rw [he, h]⟩
    · cases h
  have hk := start_keep F p b.net (.new now b.cwnd inFlight b.mode.probing) acked lost
  obtain ⟨h1, h2, h3, h4, h5⟩ := start_ok F p b.net (.new now b.cwnd inFlight b.mode.probing) acked lost hr.inv.samp hr.inv.ok rfl
  have hm : ModeOk p b.net.sampler.acked b.mode (b.net.start F p (.new now b.cwnd inFlight b.mode.probing) acked lost).2 b.exit :=
    hr.inv.mode.congr hk.full hk.pacingGain hk.cwndGain
  have hp : (seen F p b now inFlight acked lost).1.priorCwnd = b.cwnd := hk.priorCwnd
  have hn : (seen F p b now inFlight acked lost).1.now = now := hk.now
  have hov' : (seen F p b now inFlight acked lost).1.priorCwnd + (b.net.sampler.acked + (seen F p b now inFlight acked lost).1.acked) ≤ u64Max := by
    have h3' : b.net.sampler.acked + (seen F p b now inFlight acked lost).1.acked = _ := h3
    rw [hp, h3', hk.sampler]
    exact hov
  obtain ⟨a1, -, -⟩ := event_after F p b now inFlight acked lost least
  have hov2 := hov'
  obtain ⟨g1, g2, g3, g4⟩ := doEvent_called F p { b with net := (seen F p b now inFlight acked lost).2 } (seen F p b now inFlight acked lost).1 hm h5 hov2
  have hd : (Bbr.doEvent F p { b with net := (seen F p b now inFlight acked lost).2 } (seen F p b now inFlight acked lost).1).mode =
      (intoProbeBw p (seen F p b now inFlight acked lost).2 y now).1 := by
    unfold Bbr.doEvent
    dsimp only
    rw [hy]
    dsimp only
    unfold onProbeRtt
    dsimp only
    rw [hn, if_pos ht]
  have hkd : (Bbr.doEvent F p { b with net := (seen F p b now inFlight acked lost).2 } (seen F p b now inFlight acked lost).1).mode.kind = 2 := by rw [hd]; rfl
  have hkb : ({ b with net := (seen F p b now inFlight acked lost).2 } : Bbr).mode.kind = 3 := by show b.mode.kind = 3; rw [hy]; rfl
  rcases g3 with ⟨d1, d2, d3⟩ | ⟨d1, d2, d3, d4⟩
  · rw [hkb, hkd] at d1; cases d1
  · have hr0 : rank (Bbr.doEvent F p { b with net := (seen F p b now inFlight acked lost).2 } (seen F p b now inFlight acked lost).1).mode = 0 := by
      have : rank ({ b with net := (seen F p b now inFlight acked lost).2 } : Bbr).mode = 1 := by show rank b.mode = 1; rw [hy]; rfl
      omega
    obtain ⟨-, -, -, -, -, ⟨j, e5, e6⟩, -⟩ := loop_rest F p (seen F p b now inFlight acked lost).1 3
      (Bbr.doEvent F p { b with net := (seen F p b now inFlight acked lost).2 } (seen F p b now inFlight acked lost).1) (by omega) d3 (by rw [g1.sampler]; exact h5) hov2
    have hm2 : (b.moded F p now inFlight acked lost).2 = (Bbr.loop F p (seen F p b now inFlight acked lost).1 3
      (Bbr.doEvent F p { b with net := (seen F p b now inFlight acked lost).2 } (seen F p b now inFlight acked lost).1)).2 := by
      show (Bbr.loop F p (seen F p b now inFlight acked lost).1 (3 + 1) { b with net := (seen F p b now inFlight acked lost).2 }).2 = _
      rw [Bbr.loop, if_neg d2]
    rw [kind_eq, a1, hm2]
    have hj : j = 0 := by omega
    subst hj
    cases e6 with
    | stay _ _ hx => exact kindM_of (b := .probeBw y) (hx.trans hkd)

/-- Where the lower bound of the window does not exceed the goal, a sender that obeys the window gets to the end: between two events of
ProbeRTT the bytes in flight are within the window, and if the goal has not fallen since, the second sets the end.
Missing: that the lower bound does not exceed the goal, see `leaves_false`. -/
theorem drains_partial {F : Floats} {p : Params} {n : Nat} {b : Bbr} (hr : Reached F p n b) (now inFlight : Nat) (acked : List Acked) (lost : List Lost) (least : Nat)
    (hov : Small b now acked lost) (ops : List BOp) (now' inFlight' : Nat) (acked' : List Acked) (lost' : List Lost) (least' : Nat)
    (b1 b2 : Bbr) (h1 : b1 = (b.onEvent F p now inFlight acked lost least).2) (h2 : b2 = b1.run F p ops)
    (hw : inFlight' ≤ b1.cwnd) (hu1 : (until? b1).isSome = true) (hu2 : until? b2 = some none) (hlo : b.lo ≤ goal F p b1.net)
    (hg : goal F p b1.net ≤ goal F p (seen F p b2 now' inFlight' acked' lost').2) :
    until? (b2.onEvent F p now' inFlight' acked' lost' least').2 = some (some (now' + p.rttDuration)) := by
  have hc := capped hr now inFlight acked lost least hov
  dsimp only at hc
  rw [← h1] at hc
  have hcap : cap F p b1 ≤ goal F p b1.net := by
    unfold until? at hu1
    unfold cap goal
    split at hu1
    · next y e he => rw [he]; dsimp only; exact Nat.min_le_right _ _
    · cases hu1
  have hfl : (seen F p b2 now' inFlight' acked' lost').1.inFlight ≤ inFlight' := by
    have h := (start_keep F p b2.net (.new now' b2.cwnd inFlight' b2.mode.probing) acked' lost').inFlight
    have h' : (seen F p b2 now' inFlight' acked' lost').1.inFlight = inFlight' - _ - _ := h
    omega
  have := waits F p b2 now' inFlight' acked' lost' least' hu2
  dsimp only at this
  rw [this, if_pos (by omega)]

/-! The sender in the example: each packet acknowledged is followed by another, at the pacing rate. -/

/-- One packet acknowledged, one sent, ten in flight. -/
def steady (T now pn : Nat) : Nat → List BOp
  | 0 => []
  | k + 1 => .event now 12000 [pn - 10] [] (pn - 9) :: .sent now 10800 pn 1200 true :: steady T (now + T) (pn + 1) k

/-- The way into ProbeRTT, on a path of 24 kbit/s with a round trip of 4 s. -/
def way : List BOp := flights 0 4000000000 0 10 3 ++ burst 12000000000 0 30 10 ++ steady 400000000 16000000000 40 1

/-- The claim is false: where half the product of bandwidth and delay is less than the initial window, a sender that keeps to the window
and the pacing rate stays in ProbeRTT, and so does not probe for bandwidth any more. -/
theorem leaves_false : ¬ Leaves .sample .default := by
  intro h
  have := h 10 10000 1200 4000000000 0 2885 way (steady 400000000 16400000000 41 100) (by decide +kernel) (by decide +kernel) (by decide +kernel) (by decide +kernel)
  exact absurd this (by decide +kernel)

/-! ### Examples -/

/-- The wait of 200 ms on the sample path. -/
example : until? (Bbr.sample.run .sample .default (flights 0 50000000 0 10 3 ++ flight 150000000 12000000000 30 10)) = some (some 12350000000) ∧
    until? (Bbr.sample.run .sample .default (flights 0 50000000 0 10 3 ++ flight 150000000 12000000000 30 10 ++ [.sent 12150000001 1 40 1200 true, .event 12200000000 1200 [40] [] 41])) =
      some (some 12350000000) ∧
    kind (Bbr.sample.run .sample .default (flights 0 50000000 0 10 3 ++ flight 150000000 12000000000 30 10 ++ [.sent 12150000001 1 40 1200 true, .event 12350000001 1200 [40] [] 41])) =
      .probeBw := by decide +kernel

/-- In the counterexample the bytes in flight are above the goal, the window is the initial one, and the pacing rate is kept. -/
example : (let b := (Bbr.new .sample .default 10 10000 1200 4000000000 0 2885).run .sample .default way
    (goal .sample .default b.net, b.cwnd, b.pacingRate, rate 1200 400000000)) = (6000, 12000, 24000, 24000) := by decide +kernel

end Verif.Props.C144
