import Verif.Stream.PairLive

/-! The window of a stream opens again. -/

namespace Verif.Stream.Pair
open Verif Ranges
open Verif.Stream.SendBuf (SOp SEv SSt written wasCut ackedByte)
open Verif.Stream.RecvBuf (ROp REv RSt delivered firstByte wasReset wasShut finTold)

/-- The receiver's accounts. -/
structure FInv (m mw : Nat) (s : RSt) : Prop where
  cons : s.r.error = none → s.r.drain = false → s.r.flowControl.consumed = s.r.off
  full : s.r.finOff = none → s.r.flowControl.maxData - s.r.flowControl.consumed < s.r.flowControl.window / 2 → s.pending = true
  two : 2 ≤ s.r.flowControl.window
  cap : s.r.flowControl.maxWindow = mw
  le : s.r.flowControl.window ≤ mw
  first : s.r.flowControl.lastUpdate = none → s.r.flowControl.maxData = m
  idle : s.pending = true → s.r.flowControl.maxData ≤ s.r.flowControl.maxDataNext

theorem start_finv {m mw : Nat} (h1 : 2 ≤ m) (h2 : 2 ≤ mw) : FInv m mw (RecvBuf.start m m mw) := by
  constructor <;> simp [RecvBuf.start, RecvBuf.new, FlowControl.new] <;> omega

theorem step_finv {m0 m mw : Nat} {s : RSt} {es : List REv} (h : RecvBuf.HInv m0 s es) (hf : FInv m mw s) (hd : s.dead = false) (op : ROp)
    (hrej : (RecvBuf.step s op).2.isReject = false) : FInv m mw (RecvBuf.step s op).1 := by
  obtain ⟨f1, f2, f3, f4, f5, f6, f7⟩ := hf
  cases op with
  | write off data fin =>
    rcases RecvBuf.write_spec h.inv (RangeBuf.wf_mk' data off fin) (by rfl) with ⟨-, hw⟩ | ⟨-, -, hw⟩ | ⟨-, -, r', hw, W⟩
    · simp only [RecvBuf.step, hd, Bool.false_eq_true, if_false, hw]; exact ⟨f1, f2, f3, f4, f5, f6, f7⟩
    · simp only [RecvBuf.step, hd, Bool.false_eq_true, if_false, hw]; exact ⟨f1, f2, f3, f4, f5, f6, f7⟩
    · simp only [RecvBuf.step, hd, Bool.false_eq_true, if_false, hw]
      refine ⟨?_, ?_, by rw [W.fc]; exact f3, by rw [W.fc]; exact f4, by rw [W.fc]; exact f5, by rw [W.fc]; exact f6, by rw [W.fc]; exact f7⟩
      · simp only [W.error, W.drain, W.off, W.fc]
        intro h1 h2
        simp only [h2, Bool.false_eq_true, if_false]
        exact f1 h1 h2
      · simp only [W.finOff, W.fc]
        intro h1 h2
        split at h1
        · cases h1
        · exact f2 h1 h2
  | read cap =>
    rcases RecvBuf.emit_spec h.inv cap with ⟨-, hw⟩ | ⟨-, e, he, hw, -⟩ | ⟨-, out, fin, r', hw, R⟩
    · simp only [RecvBuf.step, hw]; exact ⟨f1, f2, f3, f4, f5, f6, f7⟩
    · simp only [RecvBuf.step, hw]; exact ⟨f1, f2, f3, f4, f5, f6, f7⟩
    · obtain ⟨af, haf, haf2⟩ := RecvBuf.almostFull_of R.inv
      have hs : RecvBuf.step s (.read cap) = ({ s with r := r', pending := s.pending || af }, .got out fin) := by
        simp [RecvBuf.step, hw, haf]
      rw [hs]
      have hfc := R.consumed
      refine ⟨?_, ?_, ?_, ?_, ?_, ?_, ?_⟩
      · simp only [R.error, R.drain, R.off, hfc, FlowControl.addConsumed]
        intro h1 h2
        have := f1 h1 h2
        omega
      · simp only [R.finOff]
        intro h1 h2
        have h3 := R.inv.cons
        have h4 := R.inv.offlen
        have h5 := R.inv.lim
        simp only [RecvBuf.maxData] at h5
        simp only [RecvBuf.almostFull, R.finOff, h1, Option.isNone_none, if_true, FlowControl.shouldUpdateMaxData] at haf
        rw [if_neg (by omega)] at haf
        simp only [Option.some.injEq] at haf
        rw [← haf]
        simp [h2]
      · simp only [hfc, FlowControl.addConsumed]; exact f3
      · simp only [hfc, FlowControl.addConsumed]; exact f4
      · simp only [hfc, FlowControl.addConsumed]; exact f5
      · simp only [hfc, FlowControl.addConsumed]; exact f6
      · simp only [Bool.or_eq_true]
        rintro (h1 | h1)
        · have := f7 h1
          simp only [hfc, FlowControl.addConsumed, FlowControl.maxDataNext] at this ⊢
          omega
        · exact haf2 h1
  | reset code F =>
    rcases RecvBuf.reset_spec h.inv code F with ⟨-, hw⟩ | ⟨h1, -, hc, r', hw, -⟩ | ⟨-, -, -, ret, r', hw, D⟩
    · simp only [RecvBuf.step, hd, Bool.false_eq_true, if_false, hw]; exact ⟨f1, f2, f3, f4, f5, f6, f7⟩
    · simp [RecvBuf.step, hd, hw, REv.isReject] at hrej
    · simp only [RecvBuf.step, hd, Bool.false_eq_true, if_false, hw]
      refine ⟨?_, ?_, by rw [D.fc]; exact f3, by rw [D.fc]; exact f4, by rw [D.fc]; exact f5, by rw [D.fc]; exact f6,
        by rw [D.fc]; exact f7⟩
      · simp [D.error]
      · simp [D.finOff]
  | shutdown =>
    rcases RecvBuf.shutdown_spec h.inv with ⟨-, hw⟩ | ⟨-, r', hw, -, w1, w2, w3, w4, w5, w6, w7⟩
    · simp only [RecvBuf.step, hw]; exact ⟨f1, f2, f3, f4, f5, f6, f7⟩
    · simp only [RecvBuf.step, hw]
      refine ⟨by simp [w3], by simp only [w5, w7]; exact f2, by rw [w7]; exact f3, by rw [w7]; exact f4, by rw [w7]; exact f5,
        by rw [w7]; exact f6, by rw [w7]; exact f7⟩
  | send now rtt fits =>
    by_cases hp : s.pending = true
    · obtain ⟨af, haf, -⟩ := RecvBuf.almostFull_of h.inv
      have htune : ∃ w, (if af = true then s.r.autotuneWindow now rtt else s.r)
          = { s.r with flowControl := { s.r.flowControl with window := w } } ∧
          s.r.flowControl.window ≤ w ∧ w ≤ s.r.flowControl.maxWindow := by
        have h11 := h.win
        cases af with
        | false => exact ⟨s.r.flowControl.window, rfl, Nat.le_refl _, h11⟩
        | true =>
          simp only [if_true, RecvBuf.autotuneWindow, FlowControl.autotuneWindow]
          split
          · split
            · exact ⟨_, rfl, by omega, by omega⟩
            · exact ⟨s.r.flowControl.window, rfl, Nat.le_refl _, h11⟩
          · exact ⟨s.r.flowControl.window, rfl, Nat.le_refl _, h11⟩
      obtain ⟨w, htune, hw1, hw2⟩ := htune
      cases fits with
      | false =>
        have hstep : RecvBuf.step s (.send now rtt false) =
            ({ s with r := { s.r with flowControl := { s.r.flowControl with window := w } } }, .idle) := by
          simp [RecvBuf.step, hd, hp, haf, htune]
        rw [hstep]
        refine ⟨f1, fun _ _ => hp, by simp only; omega, f4, by simp only; omega, f6, ?_⟩
        intro _
        have := f7 hp
        simp only [FlowControl.maxDataNext] at this ⊢
        omega
      | true =>
        have hstep : RecvBuf.step s (.send now rtt true) =
            ({ s with
                r := { s.r with
                  flowControl := { s.r.flowControl with
                    window := w, maxData := s.r.flowControl.consumed + w, lastUpdate := some now } },
                pending := false }, .advert (s.r.flowControl.consumed + w)) := by
          simp [RecvBuf.step, hd, hp, haf, htune, RecvBuf.updateMaxData, FlowControl.updateMaxData, FlowControl.maxDataNext]
        rw [hstep]
        refine ⟨f1, ?_, by simp only; omega, f4, by simp only; omega, by simp, by simp⟩
        simp only
        intro _ _
        omega
    · have hstep : RecvBuf.step s (.send now rtt fits) = (s, .idle) := by simp [RecvBuf.step, hd, hp]
      rw [hstep]
      exact ⟨f1, f2, f3, f4, f5, f6, f7⟩
  | lost =>
    by_cases hl : s.r.flowControl.lastUpdate.isSome = true
    · have hstep : RecvBuf.step s .lost = ({ s with pending := true }, .idle) := by simp [RecvBuf.step, hd, hl]
      rw [hstep]
      exact ⟨f1, fun _ _ => rfl, f3, f4, f5, f6, fun _ => h.last hl⟩
    · have hstep : RecvBuf.step s .lost = (s, .idle) := by simp [RecvBuf.step, hd, hl]
      rw [hstep]
      exact ⟨f1, f2, f3, f4, f5, f6, f7⟩

theorem step_rx (p : Pair) (op : POp) :
    (p.step op).rx = p.rx ∨ ∃ o, (p.step op).rx = (RecvBuf.step p.rx o).1 ∧ (RecvBuf.step p.rx o).2 ∈ (p.step op).seen := by
  have rx : ∀ o, (p.rxStep o).rx = p.rx ∨ ∃ o', (p.rxStep o).rx = (RecvBuf.step p.rx o').1 ∧ (RecvBuf.step p.rx o').2 ∈ (p.rxStep o).seen :=
    fun o => .inr ⟨o, rfl, by simp [rxStep]⟩
  cases op with
  | write data fin => exact .inl rfl
  | append data cap fin => exact .inl rfl
  | emit n => exact .inl rfl
  | abandon => exact .inl rfl
  | lost i => exact .inl rfl
  | ack i => simp only [step]; split <;> exact .inl rfl
  | grant j =>
    simp only [step]
    split
    · exact .inl rfl
    · split <;> exact .inl rfl
  | stop code => simp only [step]; split <;> exact .inl rfl
  | read cap => exact rx _
  | ignore => exact rx _
  | update now rtt fits => exact rx _
  | updateLost => exact rx _
  | reset j code =>
    simp only [step]
    split
    · exact .inl rfl
    · exact rx _
  | deliver i =>
    simp only [step]
    split
    · exact .inl rfl
    · split
      · exact .inr ⟨_, rfl, by simp [rxStep]⟩
      · exact rx _

theorem step_tx (p : Pair) (op : POp) : (p.step op).tx = p.tx ∨ ∃ o, (p.step op).tx = (SendBuf.step p.tx o).1 := by
  have tx : ∀ o, (p.txStep o).tx = p.tx ∨ ∃ o', (p.txStep o).tx = (SendBuf.step p.tx o').1 := fun o => .inr ⟨o, rfl⟩
  cases op with
  | write data fin => exact tx _
  | append data cap fin => exact tx _
  | emit n => exact tx _
  | abandon => exact tx _
  | lost i => exact tx _
  | ack i =>
    simp only [step]
    split
    · exact tx _
    · exact .inl rfl
  | grant j =>
    simp only [step]
    split
    · exact .inl rfl
    · split
      · exact tx _
      · exact .inl rfl
  | stop code =>
    simp only [step]
    split
    · exact tx _
    · exact .inl rfl
  | read cap => exact .inl rfl
  | ignore => exact .inl rfl
  | update now rtt fits => exact .inl rfl
  | updateLost => exact .inl rfl
  | reset j code => simp only [step]; split <;> exact .inl rfl
  | deliver i =>
    simp only [step]
    split
    · exact .inl rfl
    · split <;> exact .inl rfl

structure WInv (m mw : Nat) (p : Pair) : Prop where
  base : PInv m p
  f : FInv m mw p.rx
  lo : m ≤ p.tx.s.maxData

theorem step_winv {m mw : Nat} {p : Pair} (h : WInv m mw p) (op : POp) : WInv m mw (p.step op) := by
  have hP := step_pinv h.base op
  refine ⟨hP, ?_, ?_⟩
  · rcases step_rx p op with e | ⟨o, e, he⟩
    · rw [e]; exact h.f
    · rw [e]
      exact step_finv h.base.rx h.f h.base.alive o (hP.calm _ he).1
  · have := h.lo
    rcases step_tx p op with e | ⟨o, e⟩
    · rw [e]; exact this
    · rw [e]
      rcases (step_says h.base.tx o).max with h1 | ⟨g, -, h1⟩
      · omega
      · rw [h1]; exact Nat.le_trans this (Nat.le_max_left _ _)

theorem run_winv {m mw : Nat} {p : Pair} (h : WInv m mw p) (ops : List POp) : WInv m mw (p.run ops) := by
  induction ops generalizing p with
  | nil => exact h
  | cons op l ih => exact ih (step_winv h op)

theorem start_winv {m mw : Nat} (hm : m < 2 ^ 62) (h1 : 2 ≤ m) (h2 : 2 ≤ mw) : WInv m mw (start m m mw) :=
  ⟨start_pinv hm, start_finv h1 h2, by simp [start, SendBuf.start, SendBuf.new]⟩

/-- The receiver gives up the last update for lost, sends one, and it arrives. -/
def reopen (p : Pair) (now rtt : Nat) : List POp := [.updateLost, .update now rtt true, .grant p.grants.length]

/-- With everything read, the sender gets room for more. -/
theorem reopens {m mw : Nat} {p : Pair} (h : WInv m mw p) (hn : ¬ wasCut p.said) (hr : wasReset p.seen = none) (hs : wasShut p.seen = false)
    (hf : p.tx.s.finOff = none) (hall : delivered p.seen = written p.said) (hb : (written p.said).length + mw < 2 ^ 62) (now rtt : Nat) :
    let q := p.run (reopen p now rtt)
    q.tx.s.off = p.tx.s.off ∧ q.tx.s.off < q.tx.s.maxData ∧ ¬ wasCut q.said ∧ written q.said = written p.said ∧ q.tx.s.finOff = none ∧
    wasReset q.seen = none ∧ wasShut q.seen = false ∧ delivered q.seen = delivered p.seen := by
  obtain ⟨-, -, hlen⟩ := running h.base hn
  have herr : p.rx.r.error = none := by rw [h.base.rx.err]; exact hr
  have hdrn : p.rx.r.drain = false := by rw [h.base.rx.drn]; exact hs
  have hoff := h.base.rx.off hr hs
  rw [hall] at hoff
  have hcons := h.f.cons herr hdrn
  have hfin : p.rx.r.finOff = none := by
    cases hx : p.rx.r.finOff with
    | none => rfl
    | some F =>
      rw [h.base.rx.finOff] at hx
      have := (h.base.fin F hx).1
      rw [hf] at this; cases this
  have hal := h.base.alive
  have hlim := h.base.lim
  -- after the loss
  obtain ⟨s1, hs1⟩ : ∃ s1, s1 = (RecvBuf.step p.rx .lost).1 := ⟨_, rfl⟩
  have hl1 : (RecvBuf.step p.rx .lost).2 = .idle ∧ s1.r = p.rx.r ∧ s1.dead = false ∧
      (s1.pending = true ∨ (s1.pending = false ∧ p.rx.pending = false ∧ p.rx.r.flowControl.lastUpdate = none)) := by
    by_cases hl : p.rx.r.flowControl.lastUpdate.isSome = true
    · have hstep : RecvBuf.step p.rx .lost = ({ p.rx with pending := true }, .idle) := by simp [RecvBuf.step, hal, hl]
      rw [hs1, hstep]
      exact ⟨rfl, rfl, hal, .inl rfl⟩
    · have hstep : RecvBuf.step p.rx .lost = (p.rx, .idle) := by simp [RecvBuf.step, hal, hl]
      rw [hs1, hstep]
      refine ⟨rfl, rfl, hal, ?_⟩
      cases hp : p.rx.pending with
      | true => exact .inl rfl
      | false => exact .inr ⟨rfl, rfl, by simpa using hl⟩
  obtain ⟨l1, l2, l3, l4⟩ := hl1
  have hstate : p.run (reopen p now rtt) =
      ((({ p with rx := s1, seen := p.seen ++ [.idle] } : Pair).rxStep (.send now rtt true)).step (.grant p.grants.length)) := by
    simp only [reopen, run, step, rxStep, l1, ← hs1, grantsOf, List.append_nil]
  have h2 := h.f.two
  have h5 := h.f.le
  rcases l4 with l4 | ⟨l4, l5, l6⟩
  · -- an update is sent
    obtain ⟨n, r', hn1, hn2, hn3⟩ : ∃ n r', RecvBuf.step s1 (.send now rtt true) = ({ s1 with r := r', pending := false }, .advert n) ∧
        p.rx.r.off + 2 ≤ n ∧ n ≤ p.rx.r.off + mw := by
      obtain ⟨af, haf, -⟩ := RecvBuf.almostFull_of h.base.rx.inv
      have htune : ∃ w, (if af = true then p.rx.r.autotuneWindow now rtt else p.rx.r)
          = { p.rx.r with flowControl := { p.rx.r.flowControl with window := w } } ∧
          p.rx.r.flowControl.window ≤ w ∧ w ≤ p.rx.r.flowControl.maxWindow := by
        have h11 := h.base.rx.win
        cases af with
        | false => exact ⟨p.rx.r.flowControl.window, rfl, Nat.le_refl _, h11⟩
        | true =>
          simp only [if_true, RecvBuf.autotuneWindow, FlowControl.autotuneWindow]
          split
          · split
            · exact ⟨_, rfl, by omega, by omega⟩
            · exact ⟨p.rx.r.flowControl.window, rfl, Nat.le_refl _, h11⟩
          · exact ⟨p.rx.r.flowControl.window, rfl, Nat.le_refl _, h11⟩
      obtain ⟨w, htune, hw1, hw2⟩ := htune
      have hcap := h.f.cap
      refine ⟨p.rx.r.flowControl.consumed + w,
        ({ p.rx.r with flowControl := { p.rx.r.flowControl with window := w } } : RecvBuf).updateMaxData now, ?_, by omega, by omega⟩
      simp only [RecvBuf.step, l3, Bool.false_eq_true, if_false, l4, if_true, l2, haf, htune, FlowControl.maxDataNext]
    have hlt : n < 2 ^ 62 := by omega
    have hq : p.run (reopen p now rtt) =
        ({ p with rx := { s1 with r := r', pending := false }, seen := p.seen ++ [.idle] ++ [.advert n], grants := p.grants ++ [n] } : Pair).txStep
          (.maxData n) := by
      rw [hstate]
      simp only [step, rxStep, hn1, grantsOf]
      rw [List.getElem?_append_right (Nat.le_refl _)]
      simp [hlt]
    simp only [hq]
    simp only [txStep, SendBuf.step, SendBuf.updateMaxData]
    refine ⟨trivial, ?_, ?_, ?_, hf, ?_, ?_, ?_⟩
    · have : n ≤ max p.tx.s.maxData n := Nat.le_max_right _ _
      omega
    · rw [SendBuf.wasCut_append]; simpa using hn
    · simp [SendBuf.written]
    · simp [RecvBuf.wasReset_append, hr, wasReset]
    · simp [RecvBuf.wasShut_append, hs, wasShut]
    · simp [RecvBuf.delivered_append, delivered]
  · -- the initial window still stands
    have hstep : RecvBuf.step s1 (.send now rtt true) = (s1, .idle) := by simp [RecvBuf.step, l3, l4]
    have hq : p.run (reopen p now rtt) = { p with rx := s1, seen := p.seen ++ [.idle] ++ [.idle] } := by
      rw [hstate]
      simp only [step, rxStep, hstep, grantsOf]
      simp
    simp only [hq]
    refine ⟨by simp, ?_, hn, by simp, hf, ?_, ?_, ?_⟩
    · have h6 := h.f.first l6
      have h7 : ¬ (p.rx.r.flowControl.maxData - p.rx.r.flowControl.consumed < p.rx.r.flowControl.window / 2) := by
        intro hc
        have := h.f.full hfin hc
        rw [l5] at this; cases this
      have h8 := h.lo
      omega
    · simp [RecvBuf.wasReset_append, hr, wasReset]
    · simp [RecvBuf.wasShut_append, hs, wasShut]
    · simp [RecvBuf.delivered_append, delivered]

/-- What no step takes back: the stream was not given up. -/
structure Open (p : Pair) : Prop where
  cut : ¬ wasCut p.said
  reset : wasReset p.seen = none
  shut : wasShut p.seen = false
  fin : p.tx.s.finOff = none

/-- The steps taken below: nobody gives up, nobody else writes. -/
def _root_.Verif.Stream.POp.fair : POp → Bool
  | .abandon => false
  | .ignore => false
  | .stop _ => false
  | .reset _ _ => false
  | .write _ _ => false
  | .append _ _ _ => false
  | _ => true

/-- From every state whatever was written can be read, and room for more be given. -/
theorem catch_up {m mw : Nat} {p : Pair} (h : WInv m mw p) (ho : Open p) (hb : (written p.said).length + mw < 2 ^ 62) :
    ∃ ops, (∀ op ∈ ops, op.fair = true) ∧ WInv m mw (p.run ops) ∧ Open (p.run ops) ∧ written (p.run ops).said = written p.said ∧
      delivered (p.run ops).seen = written p.said ∧ (p.run ops).tx.s.off < (p.run ops).tx.s.maxData := by
  let ns := List.replicate (written p.said).length 1
  let ds := List.range (p.frames.length + ns.length)
  have hns : ns.length = (written p.said).length := by simp [ns]
  obtain ⟨r1, r2, r3, r4, r5, r6, r7, r8, -⟩ := retry_arrives h.base ho.cut (ns := ns) (ds := ds) (by simp [ns]) (by omega)
    (by intro i _ hi; simp [ds]; omega)
  have hw1 := run_winv h (retry p ns ds)
  generalize hq1 : p.run (retry p ns ds) = q1 at *
  have hread := read_all r1 (by rw [r4]; exact ho.reset) (by rw [r5]; exact ho.shut) (by rw [r3]; exact r8)
    (cap := (written p.said).length) (by rw [r3]; omega)
  have hw2 := step_winv hw1 (.read (written p.said).length)
  have hsd : (q1.step (.read (written p.said).length)).said = q1.said := rfl
  have htx : (q1.step (.read (written p.said).length)).tx = q1.tx := rfl
  have hse : wasReset (q1.step (.read (written p.said).length)).seen = none ∧ wasShut (q1.step (.read (written p.said).length)).seen = false := by
    simp only [step, rxStep, RecvBuf.wasReset_append, RecvBuf.wasShut_append, r4, r5, ho.reset, ho.shut, Option.none_or, Bool.false_or]
    simp only [RecvBuf.step]
    split
    · split <;> exact ⟨rfl, rfl⟩
    · exact ⟨rfl, rfl⟩
  generalize hq2 : q1.step (.read (written p.said).length) = q2 at *
  have hro := reopens hw2 (by rw [hsd]; exact r2) hse.1 hse.2 (by rw [htx, r7]; exact ho.fin) (by rw [hread, hsd])
    (by rw [hsd, r3]; exact hb) 0 0
  simp only at hro
  obtain ⟨o1, o2, o3, o4, o5, o6, o7, o8⟩ := hro
  have heq : p.run (retry p ns ds ++ (.read (written p.said).length :: reopen q2 0 0)) = q2.run (reopen q2 0 0) := by
    rw [run_append, hq1, run, hq2]
  refine ⟨retry p ns ds ++ (.read (written p.said).length :: reopen q2 0 0), ?_, ?_, ?_, ?_, ?_, ?_⟩
  · intro op hop
    simp only [retry, reopen, List.mem_append, List.mem_cons, List.mem_map, List.not_mem_nil, or_false] at hop
    rcases hop with (⟨_, -, rfl⟩ | ⟨_, -, rfl⟩ | ⟨_, -, rfl⟩) | rfl | rfl | rfl | rfl <;> rfl
  · rw [heq]; exact run_winv hw2 _
  · rw [heq]; exact ⟨o3, o6, o7, o5⟩
  · rw [heq, o4, hsd, r3]
  · rw [heq, o8, hread, r3]
  · rw [heq]; exact o2

/-- Any further data gets through, byte by byte if need be. -/
theorem transfer {m mw : Nat} {p : Pair} (h : WInv m mw p) (ho : Open p) (data : Bytes)
    (hb : (written p.said).length + data.length + mw < 2 ^ 62) :
    ∃ ops, (∀ op ∈ ops, op.fair = true ∨ ∃ x, op = .write [x] false) ∧ WInv m mw (p.run ops) ∧ Open (p.run ops) ∧
      written (p.run ops).said = written p.said ++ data ∧ delivered (p.run ops).seen = written p.said ++ data := by
  induction data generalizing p with
  | nil =>
    obtain ⟨ops, h1, h2, h3, h4, h5, -⟩ := catch_up h ho (by simpa using hb)
    exact ⟨ops, fun op hop => .inl (h1 op hop), h2, h3, by simpa using h4, by simpa using h5⟩
  | cons x t ih =>
    simp only [List.length_cons] at hb
    obtain ⟨ops, h1, h2, h3, h4, h5, h6⟩ := catch_up h ho (by omega)
    generalize hq : p.run ops = q at *
    -- the byte is taken
    have hwr : written (q.step (.write [x] false)).said = written q.said ++ [x] ∧ ¬ wasCut (q.step (.write [x] false)).said ∧
        (q.step (.write [x] false)).tx.s.finOff = none := by
      obtain ⟨he, hsh, -⟩ := running h2.base h3.cut
      rcases SendBuf.write_spec h2.base.tx.inv [x] false with ⟨s', n, e, T⟩ | ⟨er, -, -, hne⟩
      · have hn : n = 1 := by
          have h7 := T.amount
          rw [h7]
          apply Nat.le_antisymm
          · exact Nat.min_le_left _ _
          · exact Nat.le_min.mpr ⟨by simp, by omega⟩
        have hs : SendBuf.step q.tx (.write [x] false) = ({ q.tx with s := s' }, .offered [x] false n) := by
          simp [SendBuf.step, e]
        simp only [step, txStep, hs, SendBuf.written_append, SendBuf.wasCut_append]
        refine ⟨by simp [written, hn], by simpa using h3.cut, ?_⟩
        rw [T.finOff]
        simpa using h3.fin
      · rcases hne with hne | hne
        · exact absurd he hne
        · exact absurd h3.fin hne
    have hw2 := step_winv h2 (.write [x] false)
    obtain ⟨g1, g2, g3⟩ := hwr
    have hopen : Open (q.step (.write [x] false)) := ⟨g2, h3.reset, h3.shut, g3⟩
    obtain ⟨ops2, i1, i2, i3, i4, i5⟩ := ih hw2 hopen (by rw [g1, h4]; simp only [List.length_append, List.length_singleton]; omega)
    have heq : p.run (ops ++ .write [x] false :: ops2) = (q.step (.write [x] false)).run ops2 := by
      rw [run_append, hq]; rfl
    refine ⟨ops ++ .write [x] false :: ops2, ?_, ?_, ?_, ?_, ?_⟩
    · intro op hop
      simp only [List.mem_append, List.mem_cons] at hop
      rcases hop with hop | rfl | hop
      · exact .inl (h1 op hop)
      · exact .inr ⟨x, rfl⟩
      · exact i1 op hop
    · rw [heq]; exact i2
    · rw [heq]; exact i3
    · rw [heq, i4, g1, h4]; simp
    · rw [heq, i5, g1, h4]; simp

/-- A stream that nobody gave up can be brought to its end with any further data. -/
theorem finish {m mw : Nat} {p : Pair} (h : WInv m mw p) (ho : Open p) (data : Bytes) (x : UInt8)
    (hb : (written p.said).length + data.length + mw < 2 ^ 62) :
    ∃ ops, (∀ op ∈ ops, op.fair = true ∨ (∃ y, op = .write [y] false) ∨ op = .write [x] true) ∧
      written (p.run ops).said = written p.said ++ data ++ [x] ∧ delivered (p.run ops).seen = written p.said ++ data ++ [x] ∧
      finTold (p.run ops).seen = true := by
  obtain ⟨ops0, t1, t2, t3, t4, t5⟩ := transfer h ho data hb
  generalize hq0 : p.run ops0 = q0 at *
  obtain ⟨ops1, c1, c2, c3, c4, c5, c6⟩ := catch_up t2 t3 (by rw [t4, List.length_append]; omega)
  generalize hq1 : q0.run ops1 = q1 at *
  -- the last byte
  have hwr : written (q1.step (.write [x] true)).said = written q1.said ++ [x] ∧ ¬ wasCut (q1.step (.write [x] true)).said ∧
      (q1.step (.write [x] true)).tx.s.finOff = some (q1.step (.write [x] true)).tx.s.off := by
    obtain ⟨he, hsh, -⟩ := running c2.base c3.cut
    rcases SendBuf.write_spec c2.base.tx.inv [x] true with ⟨s', n, e, T⟩ | ⟨er, -, -, hne⟩
    · have hn : n = 1 := by
        have h7 := T.amount
        rw [h7]
        apply Nat.le_antisymm
        · exact Nat.min_le_left _ _
        · exact Nat.le_min.mpr ⟨by simp, by omega⟩
      have hs : SendBuf.step q1.tx (.write [x] true) = ({ q1.tx with s := s' }, .offered [x] true n) := by
        simp [SendBuf.step, e]
      simp only [step, txStep, hs, SendBuf.written_append, SendBuf.wasCut_append]
      refine ⟨by simp [written, hn], by simpa using c3.cut, ?_⟩
      have h1 := T.finOff
      have h2 : s'.off = q1.tx.s.off + n := by rw [T.fields]
      rw [h1, h2, hn]
      simp
    · rcases hne with hne | hne
      · exact absurd he hne
      · exact absurd c3.fin hne
  obtain ⟨g1, g2, g3⟩ := hwr
  have hw2 := step_winv c2 (.write [x] true)
  have hseen : (q1.step (.write [x] true)).seen = q1.seen := rfl
  generalize hq2 : q1.step (.write [x] true) = q2 at *
  let ns := List.replicate ((written q2.said).length + 1) 1
  let ds := List.range (q2.frames.length + ns.length)
  have hns : ns.length = (written q2.said).length + 1 := by simp [ns]
  obtain ⟨r1, r2, r3, r4, r5, r6, r7, r8, r9⟩ := retry_arrives hw2.base g2 (ns := ns) (ds := ds) (by simp [ns]) (by omega)
    (by intro i _ hi; simp [ds]; omega)
  obtain ⟨off, bs, c, b, hfw⟩ := r9 (by omega) g3
  generalize hq3 : q2.run (retry q2 ns ds) = q3 at *
  obtain ⟨-, -, hlen3⟩ := running r1 r2
  have hfs : RecvBuf.finalSize q3.seen = some (written q3.said).length := by
    obtain ⟨F, hF⟩ := final_of_wrote hfw
    have h1 := (r1.fin F hF).1
    have h2 := r1.tx.inv.fin F h1
    rw [hF, h2, hlen3]
  have hre : wasReset q3.seen = none := by rw [r4, hseen]; exact c3.reset
  have hsh : wasShut q3.seen = false := by rw [r5, hseen]; exact c3.shut
  have hW : written q3.said = written p.said ++ data ++ [x] := by rw [r3, g1, c4, t4]
  have hd : delivered q3.seen = written p.said ++ data := by rw [r6, hseen, c5, t4]
  have hread := read_all r1 hre hsh (by rw [r3]; exact r8) (cap := 1) (by rw [hW, hd]; simp only [List.length_append, List.length_singleton]; omega)
  have htold := read_fin r1 hre hsh hfs (cap := 1) (by rw [r3]; exact r8) (by rw [hW, hd]; simp only [List.length_append, List.length_singleton]; omega) (by rw [hW, hd]; simp only [List.length_append, List.length_singleton]; omega)
  have heq : p.run (ops0 ++ (ops1 ++ (.write [x] true :: (retry q2 ns ds ++ [.read 1])))) = q3.step (.read 1) := by
    rw [run_append, hq0, run_append, hq1, run, hq2, run_append, hq3]; rfl
  refine ⟨ops0 ++ (ops1 ++ (.write [x] true :: (retry q2 ns ds ++ [.read 1]))), ?_, ?_, ?_, ?_⟩
  · intro op hop
    simp only [List.mem_append, List.mem_cons, List.not_mem_nil, or_false] at hop
    rcases hop with hop | hop | rfl | hop | rfl
    · rcases t1 op hop with h1 | h1
      · exact .inl h1
      · exact .inr (.inl h1)
    · exact .inl (c1 op hop)
    · exact .inr (.inr rfl)
    · left
      simp only [retry, List.mem_append, List.mem_map] at hop
      rcases hop with ⟨_, -, rfl⟩ | ⟨_, -, rfl⟩ | ⟨_, -, rfl⟩ <;> rfl
    · exact .inl rfl
  · rw [heq]; exact hW
  · rw [heq, hread, hW]
  · rw [heq]; exact htold

/-- With a window of one byte no update is ever sent. -/
structure One (p : Pair) : Prop where
  base : PInv 1 p
  window : p.rx.r.flowControl.window ≤ 1
  pending : p.rx.pending = false
  last : p.rx.r.flowControl.lastUpdate = none
  grants : p.grants = []
  max : p.tx.s.maxData = 1

theorem one_rx {p : Pair} (h : One p) (o : ROp) (hrej : (RecvBuf.step p.rx o).2.isReject = false) :
    (RecvBuf.step p.rx o).1.r.flowControl.window ≤ 1 ∧ (RecvBuf.step p.rx o).1.pending = false ∧
    (RecvBuf.step p.rx o).1.r.flowControl.lastUpdate = none ∧ grantsOf (RecvBuf.step p.rx o).2 = [] := by
  have hd := h.base.alive
  cases o with
  | write off data fin =>
    rcases RecvBuf.write_spec h.base.rx.inv (RangeBuf.wf_mk' data off fin) (by rfl) with ⟨-, hw⟩ | ⟨-, -, hw⟩ | ⟨-, -, r', hw, W⟩
    · simp only [RecvBuf.step, hd, Bool.false_eq_true, if_false, hw]; exact ⟨h.window, h.pending, h.last, rfl⟩
    · simp only [RecvBuf.step, hd, Bool.false_eq_true, if_false, hw]; exact ⟨h.window, h.pending, h.last, rfl⟩
    · simp only [RecvBuf.step, hd, Bool.false_eq_true, if_false, hw, W.fc]; exact ⟨h.window, h.pending, h.last, rfl⟩
  | read cap =>
    rcases RecvBuf.emit_spec h.base.rx.inv cap with ⟨-, hw⟩ | ⟨-, e, he, hw, -⟩ | ⟨-, out, fin, r', hw, R⟩
    · simp only [RecvBuf.step, hw]; exact ⟨h.window, h.pending, h.last, rfl⟩
    · simp only [RecvBuf.step, hw]; exact ⟨h.window, h.pending, h.last, rfl⟩
    · have haf : r'.almostFull = some false := by
        have h1 := R.inv.cons
        have h2 := R.inv.offlen
        have h3 := R.inv.lim
        have h4 := h.window
        have h5 : r'.flowControl.window ≤ 1 := by rw [R.consumed]; exact h4
        simp only [RecvBuf.maxData] at h3
        simp only [RecvBuf.almostFull, FlowControl.shouldUpdateMaxData]
        rw [if_neg (show ¬ r'.flowControl.maxData < r'.flowControl.consumed by omega)]
        split
        · simp only [Option.some.injEq, decide_eq_false_iff_not]; omega
        · rfl
      have hs : RecvBuf.step p.rx (.read cap) = ({ p.rx with r := r', pending := p.rx.pending || false }, .got out fin) := by
        simp [RecvBuf.step, hw, haf]
      rw [hs]
      simp only [R.consumed, FlowControl.addConsumed, Bool.or_false]
      exact ⟨h.window, h.pending, h.last, rfl⟩
  | reset code F =>
    rcases RecvBuf.reset_spec h.base.rx.inv code F with ⟨-, hw⟩ | ⟨-, -, hc, r', hw, -⟩ | ⟨-, -, -, ret, r', hw, D⟩
    · simp only [RecvBuf.step, hd, Bool.false_eq_true, if_false, hw]; exact ⟨h.window, h.pending, h.last, rfl⟩
    · simp [RecvBuf.step, hd, hw, REv.isReject] at hrej
    · simp only [RecvBuf.step, hd, Bool.false_eq_true, if_false, hw, D.fc]; exact ⟨h.window, h.pending, h.last, rfl⟩
  | shutdown =>
    rcases RecvBuf.shutdown_spec h.base.rx.inv with ⟨-, hw⟩ | ⟨-, r', hw, -, w1, w2, w3, w4, w5, w6, w7⟩
    · simp only [RecvBuf.step, hw]; exact ⟨h.window, h.pending, h.last, rfl⟩
    · simp only [RecvBuf.step, hw, w7]; exact ⟨h.window, h.pending, h.last, rfl⟩
  | send now rtt fits =>
    have hstep : RecvBuf.step p.rx (.send now rtt fits) = (p.rx, .idle) := by simp [RecvBuf.step, hd, h.pending]
    rw [hstep]; exact ⟨h.window, h.pending, h.last, rfl⟩
  | lost =>
    have hstep : RecvBuf.step p.rx .lost = (p.rx, .idle) := by simp [RecvBuf.step, hd, h.last]
    rw [hstep]; exact ⟨h.window, h.pending, h.last, rfl⟩

theorem step_one {p : Pair} (h : One p) (op : POp) : One (p.step op) := by
  have hP := step_pinv h.base op
  have tx : ∀ o, (∀ g, o ≠ .maxData g) → (p.txStep o).tx.s.maxData = 1 := by
    intro o ho
    rcases (step_says h.base.tx o).max with h1 | ⟨g, h1, -⟩
    · exact h1.trans h.max
    · exact absurd h1 (ho g)
  have rx : ∀ o, PInv 1 (p.rxStep o) → One (p.rxStep o) := by
    intro o hq
    obtain ⟨h1, h2, h3, h4⟩ := one_rx h o (hq.calm _ (by simp [rxStep])).1
    exact ⟨hq, h1, h2, h3, by simp [rxStep, h4, h.grants], h.max⟩
  cases op with
  | write data fin => exact ⟨hP, h.window, h.pending, h.last, h.grants, tx _ (by simp)⟩
  | append data cap fin => exact ⟨hP, h.window, h.pending, h.last, h.grants, tx _ (by simp)⟩
  | emit n => exact ⟨hP, h.window, h.pending, h.last, h.grants, tx _ (by simp)⟩
  | abandon => exact ⟨hP, h.window, h.pending, h.last, h.grants, tx _ (by simp)⟩
  | lost i => exact ⟨hP, h.window, h.pending, h.last, h.grants, tx _ (by simp)⟩
  | ack i =>
    simp only [step] at hP ⊢
    split
    · rename_i hi
      rw [if_pos hi] at hP
      exact ⟨hP, h.window, h.pending, h.last, h.grants, tx _ (by simp)⟩
    · exact h
  | grant j => simp only [step, h.grants, List.getElem?_nil]; exact h
  | stop code =>
    simp only [step] at hP ⊢
    split
    · rename_i hi
      rw [if_pos hi] at hP
      exact ⟨hP, h.window, h.pending, h.last, h.grants, tx _ (by simp)⟩
    · exact h
  | read cap => exact rx _ hP
  | ignore => exact rx _ hP
  | update now rtt fits => exact rx _ hP
  | updateLost => exact rx _ hP
  | reset j code =>
    simp only [step] at hP ⊢
    split
    · exact h
    · rename_i F hF
      rw [hF] at hP
      exact rx _ hP
  | deliver i =>
    simp only [step] at hP ⊢
    split
    · exact h
    · rename_i off data fin hf
      rw [hf] at hP
      simp only at hP
      split at hP
      · rename_i hacc
        rw [if_pos hacc]
        obtain ⟨h1, h2, h3, h4⟩ := one_rx h (.write off data fin) (hP.calm _ (by simp [rxStep])).1
        exact ⟨hP, h1, h2, h3, by simp [rxStep, h4, h.grants], h.max⟩
      · rename_i hacc
        rw [if_neg hacc]
        exact rx _ hP

theorem run_one {p : Pair} (h : One p) (ops : List POp) : One (p.run ops) := by
  induction ops generalizing p with
  | nil => exact h
  | cons op l ih => exact ih (step_one h op)

theorem start_one (mw : Nat) : One (start 1 1 mw) :=
  ⟨start_pinv (by decide), by simp [start, RecvBuf.start, RecvBuf.new, FlowControl.new]; omega, rfl, rfl, rfl, rfl⟩

end Verif.Stream.Pair
