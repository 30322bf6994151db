import Verif.Rec.Stats

/-!
C188: the counters of packets and bytes.

With Reno and CUBIC, whatever is sent, acknowledged and lost on whatever paths: packets declared lost
and packets acknowledged are together no more than were sent; bytes acknowledged, lost and in flight
are together no more than were sent; each packet reported as lost by mistake was declared lost; and
the counters of the connection are the sums of those of its paths.

False: the bytes lost of a path are always zero (`path_bytes_false`), the connection misses losses by
mistake that come to light alone (`spurious_sum_false`), and more packets can be lost by mistake than
lost (`spurious_false`).
-/

namespace Verif.Props.C188

open Verif.Rec

variable {σ : Type}

/-! ### Measures of a list of sent packets -/

/-- Packets whose fate is open. -/
def live : List Sent → Nat
  | [] => 0
  | p :: l => (if p.live = true then 1 else 0) + live l

/-- Packets declared lost and not acknowledged. -/
def gone : List Sent → Nat
  | [] => 0
  | p :: l => (if p.timeLost.isSome = true ∧ p.timeAcked.isNone = true then 1 else 0) + gone l

/-- Bytes in flight. -/
def bytes : List Sent → Nat
  | [] => 0
  | p :: l => (if p.live = true ∧ p.inFlight = true then p.size else 0) + bytes l

theorem live_append (l m : List Sent) : live (l ++ m) = live l + live m := by
  induction l with
  | nil => simp [live]
  | cons p l ih => simp only [List.cons_append, live, ih]; omega

theorem gone_append (l m : List Sent) : gone (l ++ m) = gone l + gone m := by
  induction l with
  | nil => simp [gone]
  | cons p l ih => simp only [List.cons_append, gone, ih]; omega

theorem bytes_append (l m : List Sent) : bytes (l ++ m) = bytes l + bytes m := by
  induction l with
  | nil => simp [bytes]
  | cons p l ih => simp only [List.cons_append, bytes, ih]; omega

/-- What acknowledging does to the measures. -/
structure AckOk (a : AckAcc) (l : List Sent) (a' : AckAcc) (l' : List Sent) : Prop where
  live : a'.newly.length + live l' = a.newly.length + live l
  gone : a'.spurious + gone l' = a.spurious + gone l
  bytes : a'.bytes + bytes l' = a.bytes + bytes l

theorem ackPkt_ok (now lg : Nat) (a : AckAcc) (p : Sent) :
    AckOk a [p] (ackPkt now lg a p).1 [(ackPkt now lg a p).2] := by
  unfold ackPkt
  split
  · exact ⟨rfl, rfl, rfl⟩
  · rename_i h1
    have h1' : p.timeAcked = none := by simpa using h1
    split
    · rename_i h2
      refine ⟨?_, ?_, ?_⟩
      · have : p.live = false := by
          cases hl : p.timeLost with
          | none => simp [hl] at h2
          | some t => simp [Sent.live, hl]
        have hq : ({ p with timeAcked := some now } : Sent).live = false := by
          simp [Sent.live]
        show a.newly.length + live [{ p with timeAcked := some now }] = a.newly.length + live [p]
        simp only [live, this, hq]
      · simp [ackSpurious, gone, h1', h2]
      · have : p.live = false := by
          cases hl : p.timeLost with
          | none => simp [hl] at h2
          | some t => simp [Sent.live, hl]
        have hq : ({ p with timeAcked := some now } : Sent).live = false := by
          simp [Sent.live]
        show a.bytes + bytes [{ p with timeAcked := some now }] = a.bytes + bytes [p]
        simp [bytes, this, hq]
    · rename_i h2
      have h2' : p.timeLost = none := by simpa using h2
      have hl : p.live = true := by simp [Sent.live, h1', h2']
      refine ⟨?_, ?_, ?_⟩
      · simp [ackNew, live, hl]
        simp [Sent.live]
      · simp [ackNew, gone, h2']
      · simp only [ackNew, bytes, hl, true_and]
        simp [Sent.live]
        split <;> omega

theorem ackRange_ok (now lg lo hi : Nat) : ∀ (l : List Sent) (a : AckAcc),
    AckOk a l (ackRange now lg lo hi a l).1 (ackRange now lg lo hi a l).2
  | [], a => ⟨rfl, rfl, rfl⟩
  | p :: l, a => by
    unfold ackRange
    split
    · have := ackRange_ok now lg lo hi l a
      refine ⟨?_, ?_, ?_⟩
      · have := this.live; simp only [live]; omega
      · have := this.gone; simp only [gone]; omega
      · have := this.bytes; simp only [bytes]; omega
    · split
      · exact ⟨rfl, rfl, rfl⟩
      · have h1 := ackPkt_ok now lg a p
        have h2 := ackRange_ok now lg lo hi l (ackPkt now lg a p).1
        refine ⟨?_, ?_, ?_⟩
        · have := h1.live; have := h2.live; simp only [live] at *; omega
        · have := h1.gone; have := h2.gone; simp only [gone] at *; omega
        · have := h1.bytes; have := h2.bytes; simp only [bytes] at *; omega

theorem ackRanges_ok (now lg : Nat) (skip : Option Nat) : ∀ (rs : List (Nat × Nat)) (l : List Sent) (a : AckAcc),
    AckOk a l (ackRanges now lg skip rs a l).2.1 (ackRanges now lg skip rs a l).2.2
  | [], l, a => ⟨rfl, rfl, rfl⟩
  | r :: rs, l, a => by
    unfold ackRanges
    split
    · exact ⟨rfl, rfl, rfl⟩
    · have h1 := ackRange_ok now lg r.1 r.2 l a
      have h2 := ackRanges_ok now lg skip rs (ackRange now lg r.1 r.2 a l).2 (ackRange now lg r.1 r.2 a l).1
      exact ⟨h2.live.trans h1.live, h2.gone.trans h1.gone, h2.bytes.trans h1.bytes⟩

theorem drain_ok (t : Nat) : ∀ l : List Sent,
    live (drain t l) ≤ live l ∧ gone (drain t l) ≤ gone l ∧ bytes (drain t l) ≤ bytes l
  | [] => ⟨Nat.le_refl _, Nat.le_refl _, Nat.le_refl _⟩
  | p :: l => by
    unfold drain
    split
    · exact ⟨Nat.le_refl _, Nat.le_refl _, Nat.le_refl _⟩
    · split
      · exact ⟨Nat.le_refl _, Nat.le_refl _, Nat.le_refl _⟩
      · have := drain_ok t l
        simp only [live, gone, bytes]
        omega

/-- The packets of a list that are probes for the path MTU. -/
def probes : List Sent → Nat
  | [] => 0
  | p :: l => (if p.probe = true then 1 else 0) + probes l

theorem probes_append (l m : List Sent) : probes (l ++ m) = probes l + probes m := by
  induction l with
  | nil => simp [probes]
  | cons p l ih => simp only [List.cons_append, probes, ih]; omega

/-- The bytes of the packets of a list that were in flight and are not probes. -/
def weight : List Sent → Nat
  | [] => 0
  | p :: l => (if p.inFlight = true ∧ p.probe = false then p.size else 0) + weight l

theorem weight_append (l m : List Sent) : weight (l ++ m) = weight l + weight m := by
  induction l with
  | nil => simp [weight]
  | cons p l ih => simp only [List.cons_append, weight, ih]; omega

/-- What loss detection does to the measures. -/
structure LossOk (a : LossAcc) (l : List Sent) (a' : LossAcc) (l' : List Sent) : Prop where
  live : a'.lost.length + live l' = a.lost.length + live l
  gone : a.lost.length + gone l' = a'.lost.length + gone l
  bytes : a'.bytes + bytes l' ≤ a.bytes + bytes l
  packets : a'.packets + probes a'.lost + a.lost.length = a.packets + probes a.lost + a'.lost.length
  weight : a'.bytes + weight a.lost = a.bytes + weight a'.lost

theorem loseLoop_ok (d t now lg : Nat) : ∀ (l : List Sent) (a : LossAcc),
    LossOk a l (loseLoop d t now lg a l).1 (loseLoop d t now lg a l).2
  | [], a => ⟨rfl, rfl, Nat.le_refl _, rfl, rfl⟩
  | p :: l, a => by
    unfold loseLoop
    split
    · exact ⟨rfl, rfl, Nat.le_refl _, rfl, rfl⟩
    · split
      · have h := loseLoop_ok d t now lg l a
        refine ⟨?_, ?_, ?_, h.packets, h.weight⟩
        · have := h.live; simp only [live]; omega
        · have := h.gone; simp only [gone]; omega
        · have := h.bytes; simp only [bytes]; omega
      · rename_i hl
        have hl' : p.live = true := by simpa using hl
        split
        · have h := loseLoop_ok d t now lg l (loseAcc a p)
          have hlen : (loseAcc a p).lost.length = a.lost.length + 1 := by
            unfold loseAcc
            split
            · simp
            · split <;> simp
          have ha : p.timeAcked = none ∧ p.timeLost = none := by
            simp [Sent.live] at hl'; exact hl'
          have hb : (loseAcc a p).bytes ≤ a.bytes + (if p.live = true ∧ p.inFlight = true then p.size else 0) := by
            unfold loseAcc
            rw [hl']
            split
            · simp
            · split
              · rename_i h2; simp [h2]
              · simp
          have hp : (loseAcc a p).packets + probes (loseAcc a p).lost = a.packets + probes a.lost + 1 := by
            unfold loseAcc
            split
            · rename_i h1; simp [probes_append, probes, h1]; omega
            · rename_i h1
              split
              · simp [probes_append, probes, h1]; omega
              · simp [probes_append, probes, h1]; omega
          have hw : (loseAcc a p).bytes + weight a.lost = a.bytes + weight (loseAcc a p).lost := by
            unfold loseAcc
            split
            · rename_i h1; simp [weight_append, weight, h1]
            · rename_i h1
              split
              · rename_i h2; simp [weight_append, weight, h1, h2]; omega
              · rename_i h2; simp [weight_append, weight, h2]
          refine ⟨?_, ?_, ?_, ?_, ?_⟩
          · have := h.live
            have hx : ({ p with frames := [], timeLost := some now } : Sent).live = false := by
              simp [Sent.live]
            simp only [live, hl', hx, if_true]
            simp only [Bool.false_eq_true, if_false]
            omega
          · have := h.gone
            simp only [gone, ha.1, ha.2]
            simp
            omega
          · have := h.bytes
            have hx : ({ p with frames := [], timeLost := some now } : Sent).live = false := by
              simp [Sent.live]
            simp only [bytes, hx]
            simp only [Bool.false_eq_true, false_and, if_false]
            omega
          · have := h.packets
            simp only
            omega
          · have := h.weight
            simp only
            omega
        · exact ⟨rfl, rfl, Nat.le_refl _, rfl, rfl⟩

/-! ### A path -/

/-- A measure of the packets of all spaces. -/
def over (f : List Sent → Nat) (s : State σ) : Nat :=
  f s.initial.sent + f s.handshake.sent + f s.application.sent

theorem over_set (f : List Sent → Nat) (s : State σ) (e : Epoch) (x : Space) :
    over f (s.set e x) + f (s.get e).sent = over f s + f x.sent := by
  cases e <;> simp only [over, State.set, State.get] <;> omega

theorem over_same {f : List Sent → Nat} {s t : State σ} (h : ∀ e, (t.get e).sent = (s.get e).sent) :
    over f t = over f s := by
  have h1 := h .initial
  have h2 := h .handshake
  have h3 := h .application
  simp only [State.get] at h1 h2 h3
  simp only [over, h1, h2, h3]

/-- What a call other than the sending of a packet does to the measures of a path. -/
structure StepOk (s : State σ) (s' : State σ) (r : Out) : Prop where
  live : over live s' + r.acked.length + r.lost.length ≤ over live s
  gone : s'.spuriousCount + over gone s' ≤ s.spuriousCount + over gone s + r.lost.length
  bytes : over bytes s' + r.counts.2.2.1 + r.counts.2.1 ≤ over bytes s
  packets : r.counts.1 + probes r.lost = r.lost.length
  mist : s.spuriousCount + r.counts.2.2.2 ≤ s'.spuriousCount
  weight : r.counts.2.1 = weight r.lost

theorem StepOk.quiet {s s' : State σ} (h : ∀ e, (s'.get e).sent = (s.get e).sent)
    (hs : s'.spuriousCount = s.spuriousCount) : StepOk s s' Out.none := by
  refine ⟨?_, ?_, ?_, rfl, ?_, rfl⟩
  · rw [over_same h]; simp [Out.none]
  · rw [over_same h, hs]; simp [Out.none]
  · rw [over_same h]; simp [Out.none]
  · rw [hs]; simp [Out.none]

theorem set_spuriousCount (s : State σ) (e : Epoch) (x : Space) : (s.set e x).spuriousCount = s.spuriousCount := by
  cases e <;> rfl

theorem over_with (f : List Sent → Nat) (s t : State σ) (h1 : s.initial = t.initial)
    (h2 : s.handshake = t.handshake) (h3 : s.application = t.application) : over f s = over f t := by
  simp only [over, h1, h2, h3]

/-- Loss detection. -/
theorem detect_ok (en : Env σ) (s : State σ) (e : Epoch) (now : Nat) :
    over live (s.detectLost en e now).2 + (s.detectLost en e now).1.lost.length ≤ over live s ∧
    over gone (s.detectLost en e now).2 ≤ over gone s + (s.detectLost en e now).1.lost.length ∧
    over bytes (s.detectLost en e now).2 + (s.detectLost en e now).1.bytes ≤ over bytes s ∧
    (s.detectLost en e now).1.packets + probes (s.detectLost en e now).1.lost =
      (s.detectLost en e now).1.lost.length ∧
    (s.detectLost en e now).2.spuriousCount = s.spuriousCount ∧
    (s.detectLost en e now).1.bytes = weight (s.detectLost en e now).1.lost := by
  unfold State.detectLost
  simp only
  have h := loseLoop_ok (Nat.max (s.lossDelay en) granularity) s.pktThresh now ((s.get e).largestAcked.getD 0)
    (s.get e).sent ⟨(s.get e).inFlightCount, 0, 0, 0, none, none, (s.get e).lostAck, []⟩
  have hd := drain_ok (now - s.rtt.smoothed) ((s.get e).lose (s.lossDelay en) s.pktThresh now).2.sent
  have key : ∀ f : List Sent → Nat,
      over f ({ s.set e { ((s.get e).lose (s.lossDelay en) s.pktThresh now).2 with
          sent := drain (now - s.rtt.smoothed) ((s.get e).lose (s.lossDelay en) s.pktThresh now).2.sent } with
            cc := en.cc.addLost (ccLoss en.cc s.cc s.flight.bytes ((s.get e).lose (s.lossDelay en) s.pktThresh now).1 now)
              ((s.get e).lose (s.lossDelay en) s.pktThresh now).1.packets,
            flight := bifLoss s.flight ((s.get e).lose (s.lossDelay en) s.pktThresh now).1 now } : State σ) +
        f (s.get e).sent =
      over f s + f (drain (now - s.rtt.smoothed) ((s.get e).lose (s.lossDelay en) s.pktThresh now).2.sent) := by
    intro f
    rw [← over_set f s e { ((s.get e).lose (s.lossDelay en) s.pktThresh now).2 with
          sent := drain (now - s.rtt.smoothed) ((s.get e).lose (s.lossDelay en) s.pktThresh now).2.sent }]
    rfl
  have k1 := key live
  have k2 := key gone
  have k3 := key bytes
  have e1 := h.live
  have e2 := h.gone
  have e3 := h.bytes
  have e4 := h.packets
  have e5 := h.weight
  unfold Space.lose at *
  simp only [List.length_nil, probes, weight] at *
  refine ⟨by omega, by omega, by omega, by omega, ?_, by omega⟩
  cases e <;> rfl

theorem acked_ok (now rtt : Nat) (skip : Option Nat) (rs : List (Nat × Nat)) (x : Space) :
    (x.acked now rtt skip rs).2.1.newly.length + live (x.acked now rtt skip rs).2.2.sent ≤ live x.sent ∧
    (x.acked now rtt skip rs).2.1.spurious + gone (x.acked now rtt skip rs).2.2.sent ≤ gone x.sent ∧
    (x.acked now rtt skip rs).2.1.bytes + bytes (x.acked now rtt skip rs).2.2.sent ≤ bytes x.sent := by
  unfold Space.acked
  simp only
  have h := ackRanges_ok now (Nat.max (x.largestAcked.getD 0) (lastOf rs)) skip rs x.sent
    ⟨x.inFlightCount, 0, 0, none, false, false, [], x.ackedFrames⟩
  have e1 := h.live
  have e2 := h.gone
  have e3 := h.bytes
  simp only [List.length_nil] at e1 e2 e3
  split
  · simp only; omega
  · simp only
    have hd := drain_ok (now - rtt) (ackRanges now (Nat.max (x.largestAcked.getD 0) (lastOf rs)) skip rs
      ⟨x.inFlightCount, 0, 0, none, false, false, [], x.ackedFrames⟩ x.sent).2.2
    omega

/-- The rest of an acknowledgement. -/
theorem tail_ok (en : Env σ) (s : State σ) (e : Epoch) (a : AckAcc) (last : Acked) (delay : Nat) (st : Status) (now : Nat) :
    over live (s.ackTail en e a last delay st now).1 + (s.ackTail en e a last delay st now).2.lost.length ≤ over live s ∧
    over gone (s.ackTail en e a last delay st now).1 ≤ over gone s + (s.ackTail en e a last delay st now).2.lost.length ∧
    over bytes (s.ackTail en e a last delay st now).1 + (s.ackTail en e a last delay st now).2.counts.2.1 ≤ over bytes s ∧
    (s.ackTail en e a last delay st now).2.counts.1 + probes (s.ackTail en e a last delay st now).2.lost =
      (s.ackTail en e a last delay st now).2.lost.length ∧
    (s.ackTail en e a last delay st now).1.spuriousCount = s.spuriousCount ∧
    (s.ackTail en e a last delay st now).2.counts.2.1 = weight (s.ackTail en e a last delay st now).2.lost := by
  have hm : ∀ f : List Sent → Nat, over f (ackMid en s e a last delay st now) = over f s := by
    intro f
    unfold ackMid
    cases e <;> rfl
  have hms : (ackMid en s e a last delay st now).spuriousCount = s.spuriousCount := by
    unfold ackMid
    cases e <;> rfl
  obtain ⟨d1, d2, d3, d4, d5, d6⟩ := detect_ok en (ackMid en s e a last delay st now) e now
  rw [hm] at d1 d2 d3
  rw [hms] at d5
  unfold State.ackTail
  simp only
  generalize (ackMid en s e a last delay st now).detectLost en e now = r at *
  have he : ∀ f : List Sent → Nat, over f (ackEnd en r.2 a st now) = over f r.2 := fun f => rfl
  have hes : (ackEnd en r.2 a st now).spuriousCount = r.2.spuriousCount := rfl
  generalize ackEnd en r.2 a st now = q at *
  have k := fun f => over_set f q e { q.get e with sent := drain (now - q.rtt.smoothed) (q.get e).sent }
  have hd := drain_ok (now - q.rtt.smoothed) (q.get e).sent
  have k1 := k live
  have k2 := k gone
  have k3 := k bytes
  rw [he] at k1 k2 k3
  simp only at k1 k2 k3
  refine ⟨by omega, by omega, by omega, d4, ?_, d6⟩
  rw [set_spuriousCount, hes, d5]

theorem ack_ok (en : Env σ) (s : State σ) (e : Epoch) (rs : List (Nat × Nat)) (delay : Nat) (st : Status) (now : Nat)
    (skip : Option Nat) : StepOk s (s.onAck en e rs delay st now skip).1 (s.onAck en e rs delay st now skip).2 := by
  obtain ⟨a1, a2, a3⟩ := acked_ok now s.rtt.smoothed skip rs (s.get e)
  unfold State.onAck
  simp only
  generalize (s.get e).acked now s.rtt.smoothed skip rs = r at *
  have k := fun f => over_set f s e r.2.2
  have k1 := k live
  have k2 := k gone
  have k3 := k bytes
  split
  · have hw : ∀ f : List Sent → Nat, over f ({ s.set e r.2.2 with failed := true } : State σ) = over f (s.set e r.2.2) :=
      fun f => rfl
    refine ⟨?_, ?_, ?_, rfl, ?_, rfl⟩
    · rw [hw]; simp only [List.length_nil]; omega
    · rw [hw]
      show (s.set e r.2.2).spuriousCount + _ ≤ _
      rw [set_spuriousCount]; simp only [List.length_nil]; omega
    · rw [hw]; simp only; omega
    · show _ ≤ (s.set e r.2.2).spuriousCount
      rw [set_spuriousCount]; exact Nat.le_refl _
  · have hw : ∀ f : List Sent → Nat, over f ((s.set e r.2.2).spurious en r.2.1) = over f (s.set e r.2.2) := fun f => rfl
    have hsp : ((s.set e r.2.2).spurious en r.2.1).spuriousCount = s.spuriousCount + r.2.1.spurious := by
      show (s.set e r.2.2).spuriousCount + _ = _
      rw [set_spuriousCount]
    cases hn : r.2.1.newly.getLast? with
    | none =>
      refine ⟨?_, ?_, ?_, rfl, ?_, rfl⟩
      · simp only [hw, Out.none, List.length_nil]; omega
      · simp only [hw, hsp, Out.none, List.length_nil]; omega
      · simp only [hw, Out.none]; omega
      · simp only [hsp, Out.none]; omega
    | some last =>
      simp only
      obtain ⟨t1, t2, t3, t4, t5, t6⟩ := tail_ok en ((s.set e r.2.2).spurious en r.2.1) e r.2.1 last delay st now
      rw [hw] at t1 t2 t3
      rw [hsp] at t5
      have c1 : (((s.set e r.2.2).spurious en r.2.1).ackTail en e r.2.1 last delay st now).2.acked = r.2.1.newly := rfl
      have c2 : (((s.set e r.2.2).spurious en r.2.1).ackTail en e r.2.1 last delay st now).2.counts.2.2.1 = r.2.1.bytes := rfl
      have c3 : (((s.set e r.2.2).spurious en r.2.1).ackTail en e r.2.1 last delay st now).2.counts.2.2.2 = r.2.1.spurious := rfl
      exact ⟨by rw [c1]; omega, by rw [t5]; omega, by rw [c2]; omega, t4, by rw [c3, t5]; omega, t6⟩

theorem setTimer_over (f : List Sent → Nat) (s : State σ) (st : Status) (now : Nat) :
    over f (s.setTimer st now) = over f s := rfl

theorem step_ok (en : Env σ) (s : State σ) (o : Op) (h : ∀ e p st now, o ≠ .send e p st now) :
    StepOk s (step en s o).1 (step en s o).2 := by
  cases o with
  | send e p st now => exact absurd rfl (h e p st now)
  | ack e rs delay st now skip => exact ack_ok en s e rs delay st now skip
  | timeout st now =>
    show StepOk s (s.onTimeout en st now).1 (s.onTimeout en st now).2
    unfold State.onTimeout
    split
    · obtain ⟨d1, d2, d3, d4, d5, d6⟩ := detect_ok en s s.lossTimeAndSpace.2 now
      refine ⟨?_, ?_, ?_, d4, ?_, d6⟩
      · simp only [setTimer_over, List.length_nil]; omega
      · show (s.detectLost en s.lossTimeAndSpace.2 now).2.spuriousCount + _ ≤ _
        simp only [setTimer_over, d5]; omega
      · simp only [setTimer_over]; omega
      · show _ ≤ (s.detectLost en s.lossTimeAndSpace.2 now).2.spuriousCount
        rw [d5]; exact Nat.le_refl _
    · refine StepOk.quiet (fun e => ?_) ?_
      · simp only [State.onPto]
        generalize s.ptoSpace st now = e'
        cases e <;> cases e' <;> rfl
      · simp only [State.onPto]
        generalize s.ptoSpace st now = e'
        cases e' <;> rfl
  | discard e st now =>
    have k := fun f => over_set f s e (s.get e).discard
    have k1 := k live
    have k2 := k gone
    have k3 := k bytes
    have hw : ∀ f : List Sent → Nat, over f (s.onDiscard e st now) = over f (s.set e (s.get e).discard) := fun f => rfl
    have hs : (s.onDiscard e st now).spuriousCount = s.spuriousCount := by cases e <;> rfl
    simp only [Space.discard, Space.new, live, gone, bytes] at k1 k2 k3
    refine ⟨?_, ?_, ?_, rfl, ?_, rfl⟩
    · show over live (s.onDiscard e st now) + _ + _ ≤ _
      rw [hw]; simp only [step, Out.none, List.length_nil, Space.discard, Space.new]; omega
    · show (s.onDiscard e st now).spuriousCount + over gone (s.onDiscard e st now) ≤ _
      rw [hw, hs]; simp only [step, Out.none, List.length_nil, Space.discard, Space.new]; omega
    · show over bytes (s.onDiscard e st now) + _ + _ ≤ _
      rw [hw]; simp only [step, Out.none, Space.discard, Space.new]; omega
    · show _ ≤ (s.onDiscard e st now).spuriousCount
      rw [hs]; exact Nat.le_refl _
  | pathChange e now =>
    obtain ⟨d1, d2, d3, d4, d5, d6⟩ := detect_ok en s e now
    refine ⟨?_, ?_, ?_, d4, ?_, d6⟩
    · simp only [step, State.onPathChange, List.length_nil]; omega
    · simp only [step, State.onPathChange, d5]; omega
    · simp only [step, State.onPathChange]; omega
    · simp only [step, State.onPathChange, d5]; omega
  | pingSent e => exact StepOk.quiet (fun e' => by cases e <;> cases e' <;> rfl) (by cases e <;> rfl)
  | nextAcked e => exact StepOk.quiet (fun e' => by cases e <;> cases e' <;> rfl) (by cases e <;> rfl)
  | nextLost e =>
    refine StepOk.quiet (fun e' => ?_) (by cases e <;> rfl)
    have hn : ∀ x : Space, x.nextLost.sent = x.sent := by
      intro x; unfold Space.nextLost; split <;> rfl
    cases e <;> cases e' <;> first | rfl | exact hn _
  | ackDelay d => exact StepOk.quiet (fun e' => by cases e' <;> rfl) rfl

/-- Sending a packet. -/
theorem send_ok (en : Env σ) (s : State σ) (e : Epoch) (p : Pkt) (st : Status) (now : Nat) :
    over live (step en s (.send e p st now)).1 = over live s + 1 ∧
    over gone (step en s (.send e p st now)).1 = over gone s ∧
    over bytes (step en s (.send e p st now)).1 ≤ over bytes s + p.written ∧
    (step en s (.send e p st now)).1.spuriousCount = s.spuriousCount := by
  have hsent : ∀ e', ((step en s (.send e p st now)).1.get e').sent =
      if e' = e then (s.get e).sent ++ [p.sent now] else (s.get e').sent := by
    intro e'
    simp only [step, State.onSent, State.sentInFlight]
    split <;> cases e <;> cases e' <;> rfl
  have hf : ∀ f : List Sent → Nat, over f (step en s (.send e p st now)).1 + f (s.get e).sent =
      over f s + f ((s.get e).sent ++ [p.sent now]) := by
    intro f
    have h1 := hsent .initial
    have h2 := hsent .handshake
    have h3 := hsent .application
    cases e
    · simp only [State.get, reduceCtorEq, if_false, if_true] at h1 h2 h3 ⊢
      simp only [over, h1, h2, h3]; omega
    · simp only [State.get, reduceCtorEq, if_false, if_true] at h1 h2 h3 ⊢
      simp only [over, h1, h2, h3]; omega
    · simp only [State.get, reduceCtorEq, if_false, if_true] at h1 h2 h3 ⊢
      simp only [over, h1, h2, h3]; omega
  have k1 := hf live
  have k2 := hf gone
  have k3 := hf bytes
  rw [live_append] at k1
  rw [gone_append] at k2
  rw [bytes_append] at k3
  have m1 : live [p.sent now] = 1 := rfl
  have m2 : gone [p.sent now] = 0 := rfl
  have m3 : bytes [p.sent now] ≤ p.written := by
    have hs : (p.sent now).size ≤ p.written := by
      simp only [Pkt.sent]
      split <;> omega
    simp only [bytes, Nat.add_zero]
    split <;> omega
  refine ⟨by omega, by omega, by omega, ?_⟩
  simp only [step, State.onSent, State.sentInFlight]
  split <;> cases e <;> rfl

/-! ### The connection -/

/-- The calls made to the recoveries, with what they returned. -/
def outs (en : Env σ) (c : Conn σ) : List (ConnOp σ) → List (Op × Out)
  | [] => []
  | .on i o :: l =>
    match c.paths[i]? with
    | none => outs en (c.step en (.on i o)) l
    | some p => (o, (Rec.step en p.rec_ o).2) :: outs en (c.step en (.on i o)) l
  | o :: l => outs en (c.step en o) l

/-- What a call sent: packets and bytes. -/
def sentBy : Op → Nat × Nat
  | .send _ p _ _ => (1, p.written)
  | _ => (0, 0)

/-- What happened: packets and bytes sent, packets acknowledged, declared lost, and of these probes; the
bytes of those lost that were in flight and not probes. -/
structure Tally where
  sent : Nat := 0
  sentBytes : Nat := 0
  acked : Nat := 0
  lost : Nat := 0
  probes : Nat := 0
  lostBytes : Nat := 0
  deriving DecidableEq, Repr

def Tally.add (t : Tally) (x : Op × Out) : Tally :=
  { sent := t.sent + (sentBy x.1).1, sentBytes := t.sentBytes + (sentBy x.1).2, acked := t.acked + x.2.acked.length,
    lost := t.lost + x.2.lost.length, probes := t.probes + Verif.Props.C188.probes x.2.lost,
    lostBytes := t.lostBytes + weight x.2.lost }

def tally (l : List (Op × Out)) : Tally := l.foldl Tally.add {}

/-- The sum over the paths. -/
def sum (f : Path σ → Nat) : List (Path σ) → Nat
  | [] => 0
  | p :: l => f p + sum f l

theorem sum_append (f : Path σ → Nat) (l m : List (Path σ)) : sum f (l ++ m) = sum f l + sum f m := by
  induction l with
  | nil => simp [sum]
  | cons p l ih => simp only [List.cons_append, sum, ih]; omega

theorem sum_erase (f : Path σ → Nat) : ∀ (l : List (Path σ)) (i : Nat), sum f (l.eraseIdx i) ≤ sum f l
  | [], i => by simp [sum]
  | p :: l, 0 => by simp [sum]
  | p :: l, i + 1 => by
    have := sum_erase f l i
    simp only [List.eraseIdx_cons_succ, sum]; omega

theorem sum_set (f : Path σ → Nat) : ∀ (l : List (Path σ)) (i : Nat) (p q : Path σ), l[i]? = some p →
    sum f (l.set i q) + f p = sum f l + f q
  | [], i, p, q, h => by simp at h
  | a :: l, 0, p, q, h => by
    simp at h
    subst h
    simp only [List.set_cons_zero, sum]; omega
  | a :: l, i + 1, p, q, h => by
    have := sum_set f l i p q (by simpa using h)
    simp only [List.set_cons_succ, sum]; omega

/-- The sums over the paths. -/
def lives (c : Conn σ) : Nat := sum (fun p => over live p.rec_) c.paths
def gones (c : Conn σ) : Nat := sum (fun p => over gone p.rec_) c.paths
def inFlight (c : Conn σ) : Nat := sum (fun p => over bytes p.rec_) c.paths
def mistakes (c : Conn σ) : Nat := sum (fun p => p.rec_.spuriousCount) c.paths

/-- The invariant of a connection and what happened to it. -/
structure Inv (c : Conn σ) (t : Tally) : Prop where
  sent : c.st.sent = t.sent
  sentBytes : c.st.sentBytes = t.sentBytes
  lost : c.st.lost + t.probes = t.lost
  lostBytes : c.st.lostBytes = t.lostBytes
  fate : lives c + t.acked + t.lost ≤ t.sent
  bytes : inFlight c + c.st.ackedBytes + c.st.lostBytes ≤ c.st.sentBytes
  spurious : c.st.spurious + gones c ≤ t.lost
  mist : mistakes c + gones c ≤ t.lost
  pathSent : sum (fun p => p.st.sent) c.paths ≤ c.st.sent
  pathBytes : sum (fun p => p.st.sentBytes) c.paths ≤ c.st.sentBytes
  pathLost : sum (fun p => p.st.lost) c.paths ≤ c.st.lost
  each : ∀ p ∈ c.paths, p.st.lost + over live p.rec_ ≤ p.st.sent ∧
    p.rec_.spuriousCount + over gone p.rec_ + over live p.rec_ ≤ p.st.sent ∧
    over Verif.Props.C188.bytes p.rec_ ≤ p.st.sentBytes ∧ p.st.lostBytes = 0

theorem over_new (f : List Sent → Nat) (hf : f [] = 0) (t0 r d : Nat) (cc : σ) : over f (State.new t0 r d cc) = 0 := by
  show f [] + f [] + f [] = 0
  rw [hf]

/-- The event a call makes. -/
def made (en : Env σ) (c : Conn σ) : ConnOp σ → List (Op × Out)
  | .on i o =>
    match c.paths[i]? with
    | none => []
    | some p => [(o, (Rec.step en p.rec_ o).2)]
  | _ => []

theorem outs_cons (en : Env σ) (c : Conn σ) (o : ConnOp σ) (l : List (ConnOp σ)) :
    outs en c (o :: l) = made en c o ++ outs en (c.step en o) l := by
  cases o with
  | add => rfl
  | remove => rfl
  | on i o =>
    simp only [outs, made]
    cases c.paths[i]? <;> rfl

theorem notSend {o : Op} (h : ∀ e p st now, o ≠ .send e p st now) : sentBy o = (0, 0) ∧
    (∀ (s : PathStats) r, s.after o r = { s with lost := s.lost + r.counts.1 }) ∧
    (∀ (s : ConnStats) r, s.after o r = { s with
      lost := s.lost + r.counts.1, lostBytes := s.lostBytes + r.counts.2.1,
      ackedBytes := s.ackedBytes + r.counts.2.2.1, spurious := s.spurious + r.counts.2.2.2 }) := by
  cases o with
  | send e p st now => exact absurd rfl (h e p st now)
  | _ => exact ⟨rfl, fun _ _ => rfl, fun _ _ => rfl⟩

theorem step_inv (en : Env σ) {c : Conn σ} {t : Tally} (h : Inv c t) (o : ConnOp σ) :
    Inv (c.step en o) ((made en c o).foldl Tally.add t) := by
  cases o with
  | add t0 r d cc =>
    have hs : ∀ f : Path σ → Nat, f { rec_ := State.new t0 r d cc } = 0 →
        sum f (c.paths ++ [{ rec_ := State.new t0 r d cc }]) = sum f c.paths := by
      intro f hf
      rw [sum_append]
      simp only [sum, hf, Nat.add_zero]
    have g1 := hs (fun p => over live p.rec_) (over_new live rfl t0 r d cc)
    have g2 := hs (fun p => over gone p.rec_) (over_new gone rfl t0 r d cc)
    have g3 := hs (fun p => over bytes p.rec_) (over_new bytes rfl t0 r d cc)
    have g4 := hs (fun p => p.rec_.spuriousCount) rfl
    have g5 := hs (fun p => p.st.sent) rfl
    have g6 := hs (fun p => p.st.sentBytes) rfl
    have g7 := hs (fun p => p.st.lost) rfl
    obtain ⟨h1, h2, h3, h4, h5, h6, h7, h8, h9, h10, h11, h12⟩ := h
    simp only [lives, gones, inFlight, mistakes] at *
    refine ⟨h1, h2, h3, h4, ?_, ?_, ?_, ?_, ?_, ?_, ?_, ?_⟩
    · simp only [Conn.step, made, List.foldl_nil, lives, g1]; omega
    · simp only [Conn.step, inFlight, g3]; omega
    · simp only [Conn.step, made, List.foldl_nil, gones, g2]; omega
    · simp only [Conn.step, made, List.foldl_nil, gones, mistakes, g2, g4]; omega
    · simp only [Conn.step, g5]; omega
    · simp only [Conn.step, g6]; omega
    · simp only [Conn.step, g7]; omega
    · intro p hp
      simp only [Conn.step, List.mem_append, List.mem_singleton] at hp
      rcases hp with hp | hp
      · exact h12 p hp
      · subst hp
        refine ⟨Nat.le_refl _, Nat.le_refl _, Nat.le_refl _, rfl⟩
  | remove i =>
    have hs : ∀ f : Path σ → Nat, sum f (c.paths.eraseIdx i) ≤ sum f c.paths := fun f => sum_erase f _ _
    have g1 := hs (fun p => over live p.rec_)
    have g2 := hs (fun p => over gone p.rec_)
    have g3 := hs (fun p => over bytes p.rec_)
    have g4 := hs (fun p => p.rec_.spuriousCount)
    have g5 := hs (fun p => p.st.sent)
    have g6 := hs (fun p => p.st.sentBytes)
    have g7 := hs (fun p => p.st.lost)
    obtain ⟨h1, h2, h3, h4, h5, h6, h7, h8, h9, h10, h11, h12⟩ := h
    simp only [lives, gones, inFlight, mistakes] at *
    refine ⟨h1, h2, h3, h4, ?_, ?_, ?_, ?_, ?_, ?_, ?_, ?_⟩
    · simp only [Conn.step, made, List.foldl_nil, lives]; omega
    · simp only [Conn.step, inFlight]; omega
    · simp only [Conn.step, made, List.foldl_nil, gones]; omega
    · simp only [Conn.step, made, List.foldl_nil, gones, mistakes]; omega
    · simp only [Conn.step]; omega
    · simp only [Conn.step]; omega
    · simp only [Conn.step]; omega
    · intro p hp
      exact h12 p (List.mem_of_mem_eraseIdx hp)
  | on i o =>
    cases hp : c.paths[i]? with
    | none =>
      simp only [Conn.step, made, hp, List.foldl_nil]
      exact h
    | some p =>
      simp only [Conn.step, made, hp, List.foldl_cons, List.foldl_nil]
      have hs : ∀ f : Path σ → Nat, _ := fun f =>
        sum_set f c.paths i p ⟨(Rec.step en p.rec_ o).1, p.st.after o (Rec.step en p.rec_ o).2⟩ hp
      have g1 := hs (fun p => over live p.rec_)
      have g2 := hs (fun p => over gone p.rec_)
      have g3 := hs (fun p => over bytes p.rec_)
      have g4 := hs (fun p => p.rec_.spuriousCount)
      have g5 := hs (fun p => p.st.sent)
      have g6 := hs (fun p => p.st.sentBytes)
      have g7 := hs (fun p => p.st.lost)
      obtain ⟨h1, h2, h3, h4, h5, h6, h7, h8, h9, h10, h11, h12⟩ := h
      obtain ⟨q1, q2, q3, q4⟩ := h12 p (List.mem_of_getElem? hp)
      by_cases hn : ∀ e p st now, o ≠ .send e p st now
      · obtain ⟨n1, n2, n3⟩ := notSend hn
        obtain ⟨k1, k2, k3, k4, k5, k6⟩ := step_ok en p.rec_ o hn
        rw [n2] at g1 g2 g3 g4 g5 g6 g7 ⊢
        rw [n3]
        generalize Rec.step en p.rec_ o = r at *
        simp only [lives, gones, inFlight, mistakes] at *
        refine ⟨?_, ?_, ?_, ?_, ?_, ?_, ?_, ?_, ?_, ?_, ?_, ?_⟩
        · simp only [Tally.add, n1]; omega
        · simp only [Tally.add, n1]; omega
        · simp only [Tally.add, n1]; omega
        · simp only [Tally.add, n1]; omega
        · simp only [Tally.add, n1, lives]; omega
        · simp only [inFlight]; omega
        · simp only [Tally.add, gones]; omega
        · simp only [Tally.add, gones, mistakes]; omega
        · simp only; omega
        · simp only; omega
        · simp only; omega
        · intro x hx
          rcases List.mem_or_eq_of_mem_set hx with hx | hx
          · exact h12 x hx
          · subst hx
            exact ⟨by simp only; omega, by simp only; omega, by simp only; omega, q4⟩
      · have : ∃ e k st now, o = .send e k st now := by
          cases o with
          | send e k st now => exact ⟨e, k, st, now, rfl⟩
          | _ => exact absurd (fun _ _ _ _ => by simp) hn
        obtain ⟨e, k, st, now, rfl⟩ := this
        obtain ⟨k1, k2, k3, k4⟩ := send_ok en p.rec_ e k st now
        have ho : (Rec.step en p.rec_ (.send e k st now)).2 = Out.none := rfl
        rw [ho] at g1 g2 g3 g4 g5 g6 g7 ⊢
        generalize Rec.step en p.rec_ (.send e k st now) = r at *
        simp only [lives, gones, inFlight, mistakes, PathStats.after] at *
        refine ⟨?_, ?_, ?_, ?_, ?_, ?_, ?_, ?_, ?_, ?_, ?_, ?_⟩
        · simp only [Tally.add, sentBy, ConnStats.after]; omega
        · simp only [Tally.add, sentBy, ConnStats.after]; omega
        · simp only [Tally.add, Out.none, probes, ConnStats.after, List.length_nil]; omega
        · simp only [Tally.add, Out.none, weight, ConnStats.after]; omega
        · simp only [Tally.add, sentBy, Out.none, lives, List.length_nil]; omega
        · simp only [inFlight, ConnStats.after]; omega
        · simp only [Tally.add, gones, Out.none, List.length_nil, ConnStats.after]; omega
        · simp only [Tally.add, gones, mistakes, Out.none, List.length_nil]; omega
        · simp only [ConnStats.after]; omega
        · simp only [ConnStats.after]; omega
        · simp only [ConnStats.after]; omega
        · intro x hx
          rcases List.mem_or_eq_of_mem_set hx with hx | hx
          · exact h12 x hx
          · subst hx
            exact ⟨by simp only; omega, by simp only; omega, by simp only; omega, q4⟩

theorem run_inv (en : Env σ) : ∀ (l : List (ConnOp σ)) (c : Conn σ) (t : Tally), Inv c t →
    Inv (c.run en l) ((outs en c l).foldl Tally.add t)
  | [], c, t, h => h
  | o :: l, c, t, h => by
    rw [outs_cons, List.foldl_append]
    exact run_inv en l _ _ (step_inv en h o)

theorem inv (en : Env σ) (l : List (ConnOp σ)) :
    Inv (Conn.run en {} l) (tally (outs en {} l)) :=
  run_inv en l {} {} ⟨rfl, rfl, rfl, rfl, Nat.le_refl _, Nat.le_refl _, Nat.le_refl _, Nat.le_refl _, Nat.le_refl _,
    Nat.le_refl _, Nat.le_refl _, fun p hp => by simp at hp⟩

/-! ### The claims -/

variable (en : Env σ) (l : List (ConnOp σ))

/-- What is counted is what happened: packets and bytes sent, packets declared lost but for probes for
the path MTU, and their bytes. -/
theorem counted : (Conn.run en {} l).st.sent = (tally (outs en {} l)).sent ∧
    (Conn.run en {} l).st.sentBytes = (tally (outs en {} l)).sentBytes ∧
    (Conn.run en {} l).st.lost + (tally (outs en {} l)).probes = (tally (outs en {} l)).lost ∧
    (Conn.run en {} l).st.lostBytes = (tally (outs en {} l)).lostBytes :=
  ⟨(inv en l).sent, (inv en l).sentBytes, (inv en l).lost, (inv en l).lostBytes⟩

/-- No more packets are acknowledged and declared lost, together, than were sent. -/
theorem fate : (tally (outs en {} l)).acked + (tally (outs en {} l)).lost ≤ (Conn.run en {} l).st.sent ∧
    (Conn.run en {} l).st.lost ≤ (Conn.run en {} l).st.sent := by
  have h := inv en l
  have h1 := h.fate
  have h2 := h.sent
  have h3 := h.lost
  omega

/-- No more bytes are acknowledged, lost and in flight, together, than were sent. -/
theorem sizes : inFlight (Conn.run en {} l) + (Conn.run en {} l).st.ackedBytes + (Conn.run en {} l).st.lostBytes ≤
    (Conn.run en {} l).st.sentBytes := (inv en l).bytes

/-- No more packets are reported as lost by mistake than were declared lost, by the connection and by
its paths. -/
theorem mistaken : (Conn.run en {} l).st.spurious ≤ (tally (outs en {} l)).lost ∧
    mistakes (Conn.run en {} l) ≤ (tally (outs en {} l)).lost := by
  have h := inv en l
  have h1 := h.spurious
  have h2 := h.mist
  omega

/-- The same without probes. -/
theorem mistaken_partial (h : (tally (outs en {} l)).probes = 0) :
    (Conn.run en {} l).st.spurious ≤ (Conn.run en {} l).st.lost := by
  have h1 := (inv en l).spurious
  have h2 := (inv en l).lost
  omega

/-- The same of a path. -/
theorem path_fate (p : Path σ) (hp : p ∈ (Conn.run en {} l).paths) :
    p.st.lost ≤ p.st.sent ∧ p.rec_.spuriousCount ≤ p.st.sent ∧ over bytes p.rec_ ≤ p.st.sentBytes := by
  have := (inv en l).each p hp
  omega

/-- The paths that are left have no more than the connection. -/
theorem sums_le : sum (fun p => p.st.sent) (Conn.run en {} l).paths ≤ (Conn.run en {} l).st.sent ∧
    sum (fun p => p.st.sentBytes) (Conn.run en {} l).paths ≤ (Conn.run en {} l).st.sentBytes ∧
    sum (fun p => p.st.lost) (Conn.run en {} l).paths ≤ (Conn.run en {} l).st.lost :=
  ⟨(inv en l).pathSent, (inv en l).pathBytes, (inv en l).pathLost⟩

/-- Whether no path is removed. -/
def Kept (l : List (ConnOp σ)) : Prop := ∀ i, ConnOp.remove i ∉ l

/-- The counters of the connection are the sums over its paths. -/
structure Sums (c : Conn σ) : Prop where
  sent : c.st.sent = sum (fun p => p.st.sent) c.paths
  sentBytes : c.st.sentBytes = sum (fun p => p.st.sentBytes) c.paths
  lost : c.st.lost = sum (fun p => p.st.lost) c.paths
  spurious : c.st.spurious ≤ mistakes c

theorem step_sums {c : Conn σ} (h : Sums c) (o : ConnOp σ) (ho : ∀ i, o ≠ .remove i) : Sums (c.step en o) := by
  obtain ⟨h1, h2, h3, h4⟩ := h
  simp only [mistakes] at h4
  cases o with
  | add t0 r d cc =>
    refine ⟨?_, ?_, ?_, ?_⟩
    · simp only [Conn.step, sum_append, sum]; omega
    · simp only [Conn.step, sum_append, sum]; omega
    · simp only [Conn.step, sum_append, sum]; omega
    · simp only [Conn.step, mistakes, sum_append, sum]; omega
  | remove i => exact absurd rfl (ho i)
  | on i o =>
    cases hp : c.paths[i]? with
    | none => simp only [Conn.step, hp]; exact ⟨h1, h2, h3, h4⟩
    | some p =>
      simp only [Conn.step, hp]
      have hs : ∀ f : Path σ → Nat, _ := fun f =>
        sum_set f c.paths i p ⟨(Rec.step en p.rec_ o).1, p.st.after o (Rec.step en p.rec_ o).2⟩ hp
      have g4 := hs (fun p => p.rec_.spuriousCount)
      have g5 := hs (fun p => p.st.sent)
      have g6 := hs (fun p => p.st.sentBytes)
      have g7 := hs (fun p => p.st.lost)
      by_cases hn : ∀ e p st now, o ≠ .send e p st now
      · obtain ⟨n1, n2, n3⟩ := notSend hn
        have k5 := (step_ok en p.rec_ o hn).mist
        rw [n2] at g4 g5 g6 g7 ⊢
        rw [n3]
        generalize Rec.step en p.rec_ o = r at *
        refine ⟨?_, ?_, ?_, ?_⟩
        · simp only at *; omega
        · simp only at *; omega
        · simp only at *; omega
        · simp only [mistakes] at *; omega
      · have : ∃ e k st now, o = .send e k st now := by
          cases o with
          | send e k st now => exact ⟨e, k, st, now, rfl⟩
          | _ => exact absurd (fun _ _ _ _ => by simp) hn
        obtain ⟨e, k, st, now, rfl⟩ := this
        obtain ⟨k1, k2, k3, k4⟩ := send_ok en p.rec_ e k st now
        generalize Rec.step en p.rec_ (.send e k st now) = r at *
        simp only [PathStats.after, ConnStats.after] at *
        refine ⟨?_, ?_, ?_, ?_⟩
        · simp only; omega
        · simp only; omega
        · simp only; omega
        · simp only [mistakes]; omega

theorem run_sums : ∀ (l : List (ConnOp σ)) (c : Conn σ), Sums c → Kept l → Sums (c.run en l)
  | [], c, h, _ => h
  | o :: l, c, h, hk =>
    run_sums l _ (step_sums en h o fun i hi => hk i (hi ▸ List.mem_cons_self)) fun i hi => hk i (List.mem_cons_of_mem _ hi)

/-- As long as no path was removed, the connection counts what its paths count. -/
theorem sums (h : Kept l) : (Conn.run en {} l).st.sent = sum (fun p => p.st.sent) (Conn.run en {} l).paths ∧
    (Conn.run en {} l).st.sentBytes = sum (fun p => p.st.sentBytes) (Conn.run en {} l).paths ∧
    (Conn.run en {} l).st.lost = sum (fun p => p.st.lost) (Conn.run en {} l).paths ∧
    (Conn.run en {} l).st.spurious ≤ mistakes (Conn.run en {} l) := by
  have := run_sums en l {} ⟨rfl, rfl, rfl, Nat.le_refl _⟩ h
  exact ⟨this.sent, this.sentBytes, this.lost, this.spurious⟩

/-- A path reports no bytes lost. -/
theorem path_bytes_zero (p : Path σ) (hp : p ∈ (Conn.run en {} l).paths) : p.st.lostBytes = 0 :=
  ((inv en l).each p hp).2.2.2

/-! ### Runs, and what is false -/

/-- A controller that does nothing. -/
def idle : Env Unit :=
  ⟨⟨fun _ _ _ _ _ _ => (), fun _ _ => false, fun _ => (), fun _ _ _ _ _ => (), fun _ _ => (), fun _ => (), fun _ _ _ _ _ => ()⟩,
    fun _ d => d * 9 / 8, fun x => x / 4, fun x => x / 2⟩

def pkt (n : Nat) (probe : Bool := false) : Pkt := ⟨n, [], 1200, true, true, true, probe⟩
def ok : Status := ⟨true, true, true⟩
def snd (i n t : Nat) (probe : Bool := false) : ConnOp Unit := .on i (.send .application (pkt n probe) ok t)
def ack (i lo hi t : Nat) : ConnOp Unit := .on i (.ack .application [(lo, hi)] 0 ok t none)

/-- A path, five packets, the last acknowledged: two are lost. -/
def lose5 (probe : Bool) : List (ConnOp Unit) :=
  [.add 0 100000000 25000000 (), snd 0 0 1000000000 probe, snd 0 1 1000000000, snd 0 2 1000000000, snd 0 3 1000000000,
    snd 0 4 1000000000, ack 0 4 5 1050000000]

example : (Conn.run idle {} (lose5 false)).st = ⟨5, 6000, 2, 2400, 1200, 0⟩ ∧
    (Conn.run idle {} (lose5 false)).paths.map (·.st) = [⟨5, 6000, 2, 0⟩] ∧
    tally (outs idle {} (lose5 false)) = ⟨5, 6000, 1, 2, 0, 2400⟩ := by decide +kernel

/-- Two paths. -/
example : (Conn.run idle {} (lose5 false ++ [.add 0 100000000 25000000 (), snd 1 7 1060000000])).st.sent = 6 ∧
    (Conn.run idle {} (lose5 false ++ [.add 0 100000000 25000000 (), snd 1 7 1060000000])).paths.map (·.st.sent) = [5, 1] := by
  decide +kernel

/-- A mistake that comes to light along with another acknowledgement is counted. -/
example : (Conn.run idle {} (lose5 false ++ [ack 0 0 3 1051000000])).st.spurious = 2 ∧
    mistakes (Conn.run idle {} (lose5 false ++ [ack 0 0 3 1051000000])) = 2 := by decide +kernel

/-- The bytes lost of the paths do not add up to those of the connection. -/
theorem path_bytes_false : ∃ l : List (ConnOp Unit), Kept l ∧ 0 < (Conn.run idle {} l).st.lostBytes ∧
    sum (fun p => p.st.lostBytes) (Conn.run idle {} l).paths = 0 :=
  ⟨lose5 false, fun i hi => by simp [lose5, snd, ack] at hi, by decide +kernel, by decide +kernel⟩

/-- Nor the packets lost by mistake: an acknowledgement of such packets only is not counted. -/
theorem spurious_sum_false : ∃ l : List (ConnOp Unit), Kept l ∧
    (Conn.run idle {} l).st.spurious = 0 ∧ mistakes (Conn.run idle {} l) = 2 :=
  ⟨lose5 false ++ [ack 0 0 2 1051000000], fun i hi => by simp [lose5, snd, ack] at hi, by decide +kernel, by decide +kernel⟩

/-- More packets are lost by mistake than lost: probes for the path MTU count for the former only. -/
theorem spurious_false : ∃ l : List (ConnOp Unit), Kept l ∧
    (Conn.run idle {} l).st.lost < (Conn.run idle {} l).st.spurious :=
  ⟨lose5 true ++ [ack 0 0 3 1051000000], fun i hi => by simp [lose5, snd, ack] at hi, by decide +kernel⟩

end Verif.Props.C188
