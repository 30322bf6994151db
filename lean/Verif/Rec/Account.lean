import Verif.Rec.Lemmas

/-! What every call does to the packets in flight and to their count. -/

namespace Verif.Rec

variable {σ : Type}

/-- The packets sent in a space by some calls. -/
def sends (e : Epoch) : List Op → List Pkt
  | [] => []
  | .send e' p _ _ :: os => if e' = e then p :: sends e os else sends e os
  | _ :: os => sends e os

/-- Packet numbers rise in every space (lib.rs: `next_pkt_num`), and a PMTU probe is
ack-eliciting and in flight (lib.rs:4637-4646). -/
structure WellSent (ops : List Op) : Prop where
  rising : ∀ e, (sends e ops).Pairwise fun p q => p.pn < q.pn
  probes : ∀ e, ∀ p ∈ sends e ops, p.probe = true → p.inFlight = true

/-- What holds of a space at all times. -/
structure SpaceInv (x : Space) : Prop where
  sorted : Sorted x.sent
  probes : Probes x.sent
  count : x.inFlightCount = ((outstanding x.sent).length : Int)

/-- The packets of `x` are older than those of `l`. -/
def Before (x : Space) (l : List Pkt) : Prop := ∀ p ∈ x.sent, ∀ q ∈ l, p.pn < q.pn

theorem spaceInv_new : SpaceInv Space.new := ⟨List.Pairwise.nil, (by intro p hp; cases hp), rfl⟩

theorem before_of_static {x y : Space} {l : List Pkt} (h : ∀ p ∈ y.sent, p.static ∈ x.sent.map Sent.static) (hb : Before x l) :
    Before y l := by
  intro p hp q hq
  obtain ⟨p', hp', he⟩ := List.mem_map.1 (h p hp)
  have := hb p' hp' q hq
  simp only [Sent.static, Prod.mk.injEq] at he
  rw [he.1] at this; exact this

theorem mem_static {l m : List Sent} (h : l.map Sent.static = m.map Sent.static) {p : Sent} (hp : p ∈ l) :
    p.static ∈ m.map Sent.static := by rw [← h]; exact List.mem_map_of_mem hp

/-! ### Spaces -/

theorem acked_mem (now rtt : Nat) (skip : Option Nat) (rs : List (Nat × Nat)) (x : Space) :
    ∀ p ∈ (x.acked now rtt skip rs).2.2.sent, p.static ∈ x.sent.map Sent.static := by
  intro p hp
  unfold Space.acked at hp
  dsimp only at hp
  split at hp
  · exact mem_static (ackRanges_static ..) hp
  · exact mem_static (ackRanges_static ..) (drain_mem hp)

theorem acked_inv (now rtt : Nat) (skip : Option Nat) (rs : List (Nat × Nat)) {x : Space} (h : SpaceInv x) :
    SpaceInv (x.acked now rtt skip rs).2.2 := by
  unfold Space.acked
  dsimp only
  have hst := ackRanges_static now (Nat.max (x.largestAcked.getD 0) (lastOf rs)) skip rs x.sent
    ⟨x.inFlightCount, 0, 0, none, false, false, [], x.ackedFrames⟩
  have hc := (ackRanges_count now (Nat.max (x.largestAcked.getD 0) (lastOf rs)) skip rs x.sent
    ⟨x.inFlightCount, 0, 0, none, false, false, [], x.ackedFrames⟩).1
  have h0 := h.count
  split
  · refine ⟨sorted_of_static hst h.sorted, probes_of_static hst h.probes, ?_⟩
    dsimp only at hc ⊢
    omega
  · refine ⟨drain_sorted (sorted_of_static hst h.sorted), fun p hp => probes_of_static hst h.probes p (drain_mem hp), ?_⟩
    dsimp only at hc ⊢
    rw [drain_out]
    omega

/-- The bytes acknowledged for the first time have left the packets in flight. -/
theorem acked_bytes (now rtt : Nat) (skip : Option Nat) (rs : List (Nat × Nat)) (x : Space) :
    (x.acked now rtt skip rs).2.1.bytes + weight (outstanding (x.acked now rtt skip rs).2.2.sent) = weight (outstanding x.sent) := by
  unfold Space.acked
  dsimp only
  have hc := (ackRanges_count now (Nat.max (x.largestAcked.getD 0) (lastOf rs)) skip rs x.sent
    ⟨x.inFlightCount, 0, 0, none, false, false, [], x.ackedFrames⟩).2
  split
  · dsimp only at hc ⊢; omega
  · dsimp only at hc ⊢; rw [drain_out]; omega

theorem acked_out (now rtt : Nat) (skip : Option Nat) (rs : List (Nat × Nat)) {x : Space} (h : SpaceInv x)
    (hf : (x.acked now rtt skip rs).1 = false) :
    outstanding (x.acked now rtt skip rs).2.2.sent = (outstanding x.sent).filter (outsideAll rs) := by
  unfold Space.acked at hf ⊢
  dsimp only at hf ⊢
  split at hf
  · cases hf
  · rename_i hn
    rw [if_neg hn]
    dsimp only
    rw [drain_out]
    exact ackRanges_out _ _ _ _ _ _ h.sorted (by simpa using hn)

theorem lose_mem (d t now : Nat) (x : Space) : ∀ p ∈ (x.lose d t now).2.sent, p.static ∈ x.sent.map Sent.static := by
  intro p hp
  unfold Space.lose at hp
  exact mem_static (loseLoop_static ..) hp

theorem lose_inv (d t now : Nat) {x : Space} (h : SpaceInv x) : SpaceInv (x.lose d t now).2 := by
  unfold Space.lose
  dsimp only
  have hst := loseLoop_static (Nat.max d granularity) t now (x.largestAcked.getD 0) x.sent
    ⟨x.inFlightCount, 0, 0, 0, none, none, x.lostAck, []⟩
  have hc := (loseLoop_count (Nat.max d granularity) t now (x.largestAcked.getD 0) x.sent
    ⟨x.inFlightCount, 0, 0, 0, none, none, x.lostAck, []⟩ h.probes).1
  have h0 := h.count
  refine ⟨sorted_of_static hst h.sorted, probes_of_static hst h.probes, ?_⟩
  dsimp only at hc ⊢
  omega

theorem lose_bytes (d t now : Nat) {x : Space} (h : SpaceInv x) :
    (x.lose d t now).1.bytes + (x.lose d t now).1.probeBytes + weight (outstanding (x.lose d t now).2.sent) =
      weight (outstanding x.sent) ∧
    ((x.lose d t now).1.largest = none → (x.lose d t now).1.bytes = 0) := by
  unfold Space.lose
  dsimp only
  have hc := (loseLoop_count (Nat.max d granularity) t now (x.largestAcked.getD 0) x.sent
    ⟨x.inFlightCount, 0, 0, 0, none, none, x.lostAck, []⟩ h.probes).2
  refine ⟨?_, hc.2 (fun _ => rfl)⟩
  have := hc.1
  dsimp only at this ⊢
  omega

theorem lose_out (d t now : Nat) {x : Space} (h : SpaceInv x) :
    outstanding (x.lose d t now).2.sent = (outstanding x.sent).filter (notIn (x.lose d t now).1.lost) := by
  obtain ⟨m, h1, _, h3⟩ := loseLoop_out (Nat.max d granularity) t now (x.largestAcked.getD 0) x.sent
    ⟨x.inFlightCount, 0, 0, 0, none, none, x.lostAck, []⟩ h.sorted
  unfold Space.lose
  dsimp only at h1 h3 ⊢
  rw [h3, h1]; rfl

theorem push_inv {x : Space} (h : SpaceInv x) (p : Sent) (now : Nat) (hb : ∀ q ∈ x.sent, q.pn < p.pn)
    (hp : p.probe = true → p.inFlight = true) (hl : p.live = true) : SpaceInv ((x.onSent p now).push p) := by
  refine ⟨?_, ?_, ?_⟩
  · show Sorted (x.sent ++ [p])
    unfold Sorted
    rw [List.pairwise_append]
    refine ⟨h.sorted, List.pairwise_singleton .., ?_⟩
    intro a ha b hb'
    rw [List.mem_singleton] at hb'; subst hb'; exact hb a ha
  · intro q hq
    rcases List.mem_append.1 hq with hq | hq
    · exact h.probes q hq
    · rw [List.mem_singleton] at hq; subst hq; exact hp
  · show (if p.inFlight = true then x.inFlightCount + 1 else x.inFlightCount) = ((outstanding (x.sent ++ [p])).length : Int)
    rw [outstanding_append, outstanding_cons]
    have h0 := h.count
    cases hf : p.inFlight with
    | true => simp [Sent.open, hf, hl, h0]
    | false => simp [Sent.open, hf, h0]

theorem ackPkt_newly (now largest : Nat) (a : AckAcc) (p : Sent) (h : (ackPkt now largest a p).1.newly = []) :
    a.newly = [] ∧ (ackPkt now largest a p).1.bytes = a.bytes := by
  unfold ackPkt at h ⊢
  split at h
  · rename_i h1; rw [if_pos h1]; exact ⟨h, rfl⟩
  · rename_i h1
    split at h
    · rename_i h2; rw [if_neg h1, if_pos h2]; exact ⟨h, rfl⟩
    · simp [ackNew] at h

theorem ackRange_newly (now largest lo hi : Nat) : ∀ (l : List Sent) (a : AckAcc), (ackRange now largest lo hi a l).1.newly = [] →
    a.newly = [] ∧ (ackRange now largest lo hi a l).1.bytes = a.bytes
  | [], a, h => ⟨h, rfl⟩
  | p :: l, a, h => by
    unfold ackRange at h ⊢
    split at h
    · rename_i h1; rw [if_pos h1]; exact ackRange_newly now largest lo hi l a h
    · rename_i h1
      split at h
      · rename_i h2; rw [if_neg h1, if_pos h2]; exact ⟨h, rfl⟩
      · rename_i h2
        rw [if_neg h1, if_neg h2]
        obtain ⟨h3, h4⟩ := ackRange_newly now largest lo hi l _ h
        obtain ⟨h5, h6⟩ := ackPkt_newly now largest a p h3
        exact ⟨h5, h4.trans h6⟩

theorem ackRanges_newly (now largest : Nat) (skip : Option Nat) : ∀ (rs : List (Nat × Nat)) (l : List Sent) (a : AckAcc),
    (ackRanges now largest skip rs a l).2.1.newly = [] → a.newly = [] ∧ (ackRanges now largest skip rs a l).2.1.bytes = a.bytes
  | [], _, a, h => ⟨h, rfl⟩
  | r :: rs, l, a, h => by
    unfold ackRanges at h ⊢
    split at h
    · rename_i h1; rw [if_pos h1]; exact ⟨h, rfl⟩
    · rename_i h1
      rw [if_neg h1]
      obtain ⟨h3, h4⟩ := ackRanges_newly now largest skip rs _ _ h
      obtain ⟨h5, h6⟩ := ackRange_newly now largest r.1 r.2 l a h3
      exact ⟨h5, h4.trans h6⟩

/-- An ACK that acknowledges nothing new acknowledges no bytes. -/
theorem acked_none_bytes (now rtt : Nat) (skip : Option Nat) (rs : List (Nat × Nat)) (x : Space)
    (h : (x.acked now rtt skip rs).2.1.newly = []) : (x.acked now rtt skip rs).2.1.bytes = 0 := by
  have e1 : (x.acked now rtt skip rs).2.1 = (ackRanges now (Nat.max (x.largestAcked.getD 0) (lastOf rs)) skip rs
      ⟨x.inFlightCount, 0, 0, none, false, false, [], x.ackedFrames⟩ x.sent).2.1 := by
    unfold Space.acked
    dsimp only
    split <;> rfl
  rw [e1] at h ⊢
  exact (ackRanges_newly _ _ _ _ _ _ h).2

/-! ### States -/

/-- What holds of all spaces at all times. -/
def StateInv (s : State σ) : Prop := ∀ e, SpaceInv (s.get e)

/-- The bytes of all spaces. -/
def total (s : State σ) : Nat :=
  weight (outstanding s.initial.sent) + weight (outstanding s.handshake.sent) + weight (outstanding s.application.sent)

theorem stateInv_set {s : State σ} (h : StateInv s) {e : Epoch} {x : Space} (hx : SpaceInv x) : StateInv (s.set e x) := by
  intro e'
  rw [get_set]
  split
  · exact hx
  · exact h e'

theorem total_set (s : State σ) (e : Epoch) (x : Space) :
    total (s.set e x) + weight (outstanding (s.get e).sent) = total s + weight (outstanding x.sent) := by
  cases e <;> simp only [total, State.set, State.get] <;> omega

theorem weight_le_total (s : State σ) (e : Epoch) : weight (outstanding (s.get e).sent) ≤ total s := by
  cases e <;> simp only [total, State.get] <;> omega

@[simp] theorem setTimer_get (s : State σ) (st : Status) (now : Nat) (e : Epoch) : (s.setTimer st now).get e = s.get e := by cases e <;> rfl
@[simp] theorem setTimer_flight (s : State σ) (st : Status) (now : Nat) : (s.setTimer st now).flight = s.flight := rfl
@[simp] theorem setTimer_failed (s : State σ) (st : Status) (now : Nat) : (s.setTimer st now).failed = s.failed := rfl

theorem detectLost_get (en : Env σ) (s : State σ) (e e' : Epoch) (now : Nat) :
    (s.detectLost en e now).2.get e' =
      if e' = e then { ((s.get e).lose (s.lossDelay en) s.pktThresh now).2 with
        sent := drain (now - s.rtt.smoothed) ((s.get e).lose (s.lossDelay en) s.pktThresh now).2.sent }
      else s.get e' := by
  unfold State.detectLost
  rw [← get_set]
  exact get_congr rfl rfl rfl e'

theorem detectLost_out (en : Env σ) (s : State σ) (h : StateInv s) (e e' : Epoch) (now : Nat) :
    outstanding ((s.detectLost en e now).2.get e').sent =
      if e' = e then (outstanding (s.get e).sent).filter (notIn (s.detectLost en e now).1.lost) else outstanding (s.get e').sent := by
  rw [detectLost_get]
  split
  · dsimp only
    rw [drain_out, lose_out _ _ _ (h e)]; rfl
  · rfl

theorem detectLost_inv (en : Env σ) {s : State σ} (h : StateInv s) (e : Epoch) (now : Nat) : StateInv (s.detectLost en e now).2 := by
  intro e'
  rw [detectLost_get]
  split
  · have := lose_inv (s.lossDelay en) s.pktThresh now (h e)
    refine ⟨drain_sorted this.sorted, fun p hp => this.probes p (drain_mem hp), ?_⟩
    dsimp only
    rw [drain_out]; exact this.count
  · exact h e'

/-- The bytes declared lost leave the bytes in flight; `slack` is what else is counted. -/
theorem detectLost_bytes (en : Env σ) {s : State σ} (h : StateInv s) (e : Epoch) (now slack : Nat)
    (hb : s.flight.bytes = total s + slack) :
    (s.detectLost en e now).2.flight.bytes = total (s.detectLost en e now).2 + slack := by
  have hw := weight_le_total s e
  obtain ⟨h1, h2⟩ := lose_bytes (s.lossDelay en) s.pktThresh now (h e)
  have ht : total (s.detectLost en e now).2 + weight (outstanding (s.get e).sent) =
      total s + weight (outstanding ((s.get e).lose (s.lossDelay en) s.pktThresh now).2.sent) := by
    have := total_set s e { ((s.get e).lose (s.lossDelay en) s.pktThresh now).2 with
        sent := drain (now - s.rtt.smoothed) ((s.get e).lose (s.lossDelay en) s.pktThresh now).2.sent }
    rw [← drain_out (now - s.rtt.smoothed) ((s.get e).lose (s.lossDelay en) s.pktThresh now).2.sent]
    exact this
  have hf : (s.detectLost en e now).2.flight.bytes = s.flight.bytes - ((s.get e).lose (s.lossDelay en) s.pktThresh now).1.bytes -
      ((s.get e).lose (s.lossDelay en) s.pktThresh now).1.probeBytes := by
    show (bifLoss s.flight ((s.get e).lose (s.lossDelay en) s.pktThresh now).1 now).bytes = _
    unfold bifLoss
    rw [Flight.sub_bytes]
    split
    · rw [Flight.sub_bytes]
    · rename_i hn
      rw [h2 (by simpa using hn)]; rfl
  rw [hf]
  omega

/-! ### Calls -/

theorem onSent_get (en : Env σ) (s : State σ) (e e' : Epoch) (p : Sent) (st : Status) (now : Nat) :
    (s.onSent en e p st now).get e' = if e' = e then ((s.get e).onSent p now).push p else s.get e' := by
  unfold State.onSent State.sentInFlight
  dsimp only
  split <;> cases e <;> cases e' <;> rfl

theorem onSent_flight (en : Env σ) (s : State σ) (e : Epoch) (p : Sent) (st : Status) (now : Nat) :
    (s.onSent en e p st now).flight.bytes = s.flight.bytes + (if p.inFlight = true then p.size else 0) ∧
    (s.onSent en e p st now).failed = s.failed := by
  unfold State.onSent State.sentInFlight
  dsimp only
  cases hf : p.inFlight with
  | false => simp [State.sentCounters]
  | true => simp [State.sentCounters, Flight.add_bytes]

@[simp] theorem ackEnd_get (en : Env σ) (s : State σ) (a : AckAcc) (st : Status) (now : Nat) (e : Epoch) :
    (ackEnd en s a st now).get e = s.get e := by cases e <;> rfl

theorem ackMid_sent (en : Env σ) (s : State σ) (e e' : Epoch) (a : AckAcc) (last : Acked) (delay : Nat) (st : Status) (now : Nat) :
    ((ackMid en s e a last delay st now).get e').sent = (s.get e').sent ∧
    ((ackMid en s e a last delay st now).get e').inFlightCount = (s.get e').inFlightCount := by
  cases e <;> cases e' <;> exact ⟨rfl, rfl⟩

theorem ackMid_inv (en : Env σ) {s : State σ} (h : StateInv s) (e : Epoch) (a : AckAcc) (last : Acked) (delay : Nat) (st : Status)
    (now : Nat) : StateInv (ackMid en s e a last delay st now) := by
  intro e'
  obtain ⟨h1, h2⟩ := ackMid_sent en s e e' a last delay st now
  refine ⟨?_, ?_, ?_⟩
  · rw [h1]; exact (h e').sorted
  · rw [h1]; exact (h e').probes
  · rw [h1, h2]; exact (h e').count

theorem ackMid_total (en : Env σ) (s : State σ) (e : Epoch) (a : AckAcc) (last : Acked) (delay : Nat) (st : Status)
    (now : Nat) : total (ackMid en s e a last delay st now) = total s := by
  cases e <;> rfl

theorem ackMid_flight (en : Env σ) (s : State σ) (e : Epoch) (a : AckAcc) (last : Acked) (delay : Nat) (st : Status)
    (now : Nat) : (ackMid en s e a last delay st now).flight = s.flight := by
  cases e <;> rfl

theorem ackTail_get (en : Env σ) (s : State σ) (e e' : Epoch) (a : AckAcc) (last : Acked) (delay : Nat) (st : Status) (now : Nat) :
    ∃ t, (s.ackTail en e a last delay st now).1.get e' =
      if e' = e then { ((ackMid en s e a last delay st now).detectLost en e now).2.get e with
        sent := drain t (((ackMid en s e a last delay st now).detectLost en e now).2.get e).sent }
      else ((ackMid en s e a last delay st now).detectLost en e now).2.get e' := by
  unfold State.ackTail
  dsimp only
  refine ⟨now - (ackEnd en ((ackMid en s e a last delay st now).detectLost en e now).2 a st now).rtt.smoothed, ?_⟩
  rw [get_set, ackEnd_get, ackEnd_get]

theorem ackTail_flight (en : Env σ) (s : State σ) (e : Epoch) (a : AckAcc) (last : Acked) (delay : Nat) (st : Status) (now : Nat) :
    (s.ackTail en e a last delay st now).1.flight.bytes =
      ((ackMid en s e a last delay st now).detectLost en e now).2.flight.bytes - a.bytes := by
  unfold State.ackTail
  dsimp only
  rw [set_flight]
  exact Flight.sub_bytes ..

theorem ackTail_lost (en : Env σ) (s : State σ) (e : Epoch) (a : AckAcc) (last : Acked) (delay : Nat) (st : Status) (now : Nat) :
    (s.ackTail en e a last delay st now).2.lost = ((ackMid en s e a last delay st now).detectLost en e now).1.lost ∧
    (s.ackTail en e a last delay st now).2.acked = a.newly ∧
    (s.ackTail en e a last delay st now).2.epoch = e := ⟨rfl, rfl, rfl⟩

theorem detectLost_failed (en : Env σ) (s : State σ) (e : Epoch) (now : Nat) : (s.detectLost en e now).2.failed = s.failed := by
  cases e <;> rfl

theorem ackTail_failed (en : Env σ) (s : State σ) (e : Epoch) (a : AckAcc) (last : Acked) (delay : Nat) (st : Status) (now : Nat) :
    (s.ackTail en e a last delay st now).1.failed = s.failed := by
  unfold State.ackTail
  dsimp only
  rw [set_failed]
  show ((ackMid en s e a last delay st now).detectLost en e now).2.failed = _
  rw [detectLost_failed]
  exact set_failed ..

theorem ackTail_out (en : Env σ) {s : State σ} (h : StateInv s) (e e' : Epoch) (a : AckAcc) (last : Acked) (delay : Nat) (st : Status)
    (now : Nat) : outstanding ((s.ackTail en e a last delay st now).1.get e').sent =
      if e' = e then (outstanding (s.get e).sent).filter (notIn (s.ackTail en e a last delay st now).2.lost)
      else outstanding (s.get e').sent := by
  obtain ⟨t, ht⟩ := ackTail_get en s e e' a last delay st now
  rw [ht, (ackTail_lost en s e a last delay st now).1]
  have hm := ackMid_inv en h e a last delay st now
  split
  · dsimp only
    rw [drain_out, detectLost_out en _ hm, if_pos rfl, (ackMid_sent ..).1]
  · rename_i hne
    rw [detectLost_out en _ hm, if_neg hne, (ackMid_sent ..).1]

theorem ackTail_inv (en : Env σ) {s : State σ} (h : StateInv s) (e : Epoch) (a : AckAcc) (last : Acked) (delay : Nat) (st : Status)
    (now : Nat) : StateInv (s.ackTail en e a last delay st now).1 := by
  intro e'
  obtain ⟨t, ht⟩ := ackTail_get en s e e' a last delay st now
  rw [ht]
  have hd := detectLost_inv en (ackMid_inv en h e a last delay st now) e now
  split
  · refine ⟨drain_sorted (hd e).sorted, fun p hp => (hd e).probes p (drain_mem hp), ?_⟩
    dsimp only
    rw [drain_out]; exact (hd e).count
  · exact hd e'

/-- A packet list is made of packets of another. -/
def From (x y : Space) : Prop := ∀ p ∈ x.sent, p.static ∈ y.sent.map Sent.static

theorem From.refl (x : Space) : From x x := fun _ hp => List.mem_map_of_mem hp

theorem From.trans {x y z : Space} (h1 : From x y) (h2 : From y z) : From x z := by
  intro p hp
  obtain ⟨q, hq, he⟩ := List.mem_map.1 (h1 p hp)
  rw [← he]; exact h2 q hq

theorem detectLost_from (en : Env σ) (s : State σ) (e e' : Epoch) (now : Nat) : From ((s.detectLost en e now).2.get e') (s.get e') := by
  rw [detectLost_get]
  split
  · rename_i he
    subst he
    intro p hp
    exact lose_mem _ _ _ _ p (drain_mem hp)
  · exact From.refl _

theorem ackTail_from (en : Env σ) (s : State σ) (e e' : Epoch) (a : AckAcc) (last : Acked) (delay : Nat) (st : Status)
    (now : Nat) : From ((s.ackTail en e a last delay st now).1.get e') (s.get e') := by
  obtain ⟨t, ht⟩ := ackTail_get en s e e' a last delay st now
  rw [ht]
  have hd := detectLost_from en (ackMid en s e a last delay st now) e e' now
  have hm : From ((ackMid en s e a last delay st now).get e') (s.get e') := by
    intro p hp
    rw [(ackMid_sent ..).1] at hp
    exact List.mem_map_of_mem hp
  split
  · rename_i he
    subst he
    intro p hp
    exact (hd.trans hm) p (drain_mem hp)
  · exact hd.trans hm

/-- The packets of a space in a state made by `on_ack_received`. -/
theorem spurious_get (en : Env σ) (s : State σ) (a : AckAcc) (e : Epoch) : (s.spurious en a).get e = s.get e := by cases e <;> rfl

theorem onAck_cases (en : Env σ) (s : State σ) (e : Epoch) (rs : List (Nat × Nat)) (delay : Nat) (st : Status) (now : Nat)
    (skip : Option Nat) :
    (((s.get e).acked now s.rtt.smoothed skip rs).1 = true ∧
      s.onAck en e rs delay st now skip =
        ({ s.set e ((s.get e).acked now s.rtt.smoothed skip rs).2.2 with failed := true },
          ⟨e, ((s.get e).acked now s.rtt.smoothed skip rs).2.1.newly, [], 0, 0, 0, 0⟩)) ∨
    (((s.get e).acked now s.rtt.smoothed skip rs).1 = false ∧ ((s.get e).acked now s.rtt.smoothed skip rs).2.1.newly = [] ∧
      s.onAck en e rs delay st now skip =
        ((s.set e ((s.get e).acked now s.rtt.smoothed skip rs).2.2).spurious en ((s.get e).acked now s.rtt.smoothed skip rs).2.1, Out.none)) ∨
    (((s.get e).acked now s.rtt.smoothed skip rs).1 = false ∧
      ∃ last, ((s.get e).acked now s.rtt.smoothed skip rs).2.1.newly.getLast? = some last ∧
      s.onAck en e rs delay st now skip =
        ((s.set e ((s.get e).acked now s.rtt.smoothed skip rs).2.2).spurious en ((s.get e).acked now s.rtt.smoothed skip rs).2.1).ackTail
          en e ((s.get e).acked now s.rtt.smoothed skip rs).2.1 last delay st now) := by
  unfold State.onAck
  dsimp only
  split
  · rename_i h; exact Or.inl ⟨h, rfl⟩
  · rename_i h
    have h' : ((s.get e).acked now s.rtt.smoothed skip rs).1 = false := by simpa using h
    split
    · rename_i hl; exact Or.inr (Or.inl ⟨h', by simpa using hl, rfl⟩)
    · rename_i last hl; exact Or.inr (Or.inr ⟨h', last, hl, rfl⟩)

theorem ackedSet_inv {s : State σ} (h : StateInv s) (en : Env σ) (e : Epoch) (now : Nat) (skip : Option Nat) (rs : List (Nat × Nat))
    (a : AckAcc) : StateInv ((s.set e ((s.get e).acked now s.rtt.smoothed skip rs).2.2).spurious en a) := by
  intro e'
  rw [spurious_get]
  exact stateInv_set h (acked_inv now s.rtt.smoothed skip rs (h e)) e'

theorem ackedSet_from (s : State σ) (e e' : Epoch) (now : Nat) (skip : Option Nat) (rs : List (Nat × Nat)) :
    From ((s.set e ((s.get e).acked now s.rtt.smoothed skip rs).2.2).get e') (s.get e') := by
  rw [get_set]
  split
  · rename_i he; subst he; exact acked_mem now s.rtt.smoothed skip rs _
  · exact From.refl _

theorem onAck_inv (en : Env σ) {s : State σ} (h : StateInv s) (e : Epoch) (rs : List (Nat × Nat)) (delay : Nat) (st : Status) (now : Nat)
    (skip : Option Nat) : StateInv (s.onAck en e rs delay st now skip).1 := by
  rcases onAck_cases en s e rs delay st now skip with ⟨_, he⟩ | ⟨_, _, he⟩ | ⟨_, last, _, he⟩
  · rw [he]
    intro e'
    exact stateInv_set h (acked_inv now s.rtt.smoothed skip rs (h e)) e'
  · rw [he]; exact ackedSet_inv h en e now skip rs _
  · rw [he]; exact ackTail_inv en (ackedSet_inv h en e now skip rs _) e _ last delay st now

theorem onAck_from (en : Env σ) (s : State σ) (e e' : Epoch) (rs : List (Nat × Nat)) (delay : Nat) (st : Status) (now : Nat)
    (skip : Option Nat) : From ((s.onAck en e rs delay st now skip).1.get e') (s.get e') := by
  rcases onAck_cases en s e rs delay st now skip with ⟨_, he⟩ | ⟨_, _, he⟩ | ⟨_, last, _, he⟩
  · rw [he]; exact ackedSet_from s e e' now skip rs
  · rw [he, spurious_get]; exact ackedSet_from s e e' now skip rs
  · rw [he]
    refine (ackTail_from en _ e e' _ last delay st now).trans ?_
    rw [spurious_get]; exact ackedSet_from s e e' now skip rs

theorem onPto_get (s : State σ) (st : Status) (now : Nat) (e : Epoch) : ((s.onPto st now).get e).sent = (s.get e).sent ∧
    ((s.onPto st now).get e).inFlightCount = (s.get e).inFlightCount := by
  unfold State.onPto
  dsimp only
  rw [setTimer_get, get_set]
  split
  · rename_i he; subst he
    exact ⟨rfl, rfl⟩
  · exact ⟨rfl, rfl⟩

theorem onPto_flight (s : State σ) (st : Status) (now : Nat) : (s.onPto st now).flight = s.flight ∧ (s.onPto st now).failed = s.failed := by
  unfold State.onPto
  dsimp only
  rw [setTimer_flight, set_flight, setTimer_failed, set_failed]
  exact ⟨rfl, rfl⟩

theorem stateInv_congr {s t : State σ} (h : StateInv s) (he : ∀ e, (t.get e).sent = (s.get e).sent ∧
    (t.get e).inFlightCount = (s.get e).inFlightCount) : StateInv t := by
  intro e
  obtain ⟨h1, h2⟩ := he e
  refine ⟨?_, ?_, ?_⟩
  · rw [h1]; exact (h e).sorted
  · rw [h1]; exact (h e).probes
  · rw [h1, h2]; exact (h e).count

theorem total_congr {s t : State σ} (he : ∀ e, (t.get e).sent = (s.get e).sent) : total t = total s := by
  have h1 := he .initial
  have h2 := he .handshake
  have h3 := he .application
  simp only [State.get] at h1 h2 h3
  simp only [total, h1, h2, h3]

theorem total_out_congr {s t : State σ} (he : ∀ e, outstanding (t.get e).sent = outstanding (s.get e).sent) : total t = total s := by
  have h1 := he .initial
  have h2 := he .handshake
  have h3 := he .application
  simp only [State.get] at h1 h2 h3
  simp only [total, h1, h2, h3]

theorem nextLost_sent (x : Space) : x.nextLost.sent = x.sent ∧ x.nextLost.inFlightCount = x.inFlightCount := by
  unfold Space.nextLost
  split <;> exact ⟨rfl, rfl⟩

/-- The calls that only touch counters and queues. -/
theorem step_quiet (en : Env σ) (s : State σ) (o : Op)
    (ho : (∃ e, o = .pingSent e) ∨ (∃ e, o = .nextAcked e) ∨ (∃ e, o = .nextLost e) ∨ (∃ d, o = .ackDelay d)) (e : Epoch) :
    ((step en s o).1.get e).sent = (s.get e).sent ∧ ((step en s o).1.get e).inFlightCount = (s.get e).inFlightCount ∧
    (step en s o).1.flight = s.flight ∧ (step en s o).1.failed = s.failed ∧ (step en s o).2 = Out.none := by
  rcases ho with ⟨e', rfl⟩ | ⟨e', rfl⟩ | ⟨e', rfl⟩ | ⟨d, rfl⟩
  · cases e <;> cases e' <;> exact ⟨rfl, rfl, rfl, rfl, rfl⟩
  · cases e <;> cases e' <;> exact ⟨rfl, rfl, rfl, rfl, rfl⟩
  · show (((s.set e' (s.get e').nextLost).get e).sent = _) ∧ _
    refine ⟨?_, ?_, set_flight .., set_failed .., rfl⟩
    · rw [get_set]
      split
      · rename_i he; subst he; exact (nextLost_sent _).1
      · rfl
    · show ((s.set e' (s.get e').nextLost).get e).inFlightCount = _
      rw [get_set]
      split
      · rename_i he; subst he; exact (nextLost_sent _).2
      · rfl
  · cases e <;> exact ⟨rfl, rfl, rfl, rfl, rfl⟩

theorem onDiscard_get (s : State σ) (e e' : Epoch) (st : Status) (now : Nat) :
    (s.onDiscard e st now).get e' = if e' = e then (s.get e).discard else s.get e' := by
  unfold State.onDiscard
  rw [setTimer_get, ← get_set]
  exact get_congr rfl rfl rfl e'

theorem unackedBytes_eq (x : Space) : x.unackedBytes = weight (outstanding x.sent) := by
  unfold Space.unackedBytes weight outstanding
  rw [List.map_map]
  rfl

theorem onDiscard_flight (s : State σ) (e : Epoch) (st : Status) (now : Nat) :
    (s.onDiscard e st now).flight.bytes = s.flight.bytes - weight (outstanding (s.get e).sent) ∧
    (s.onDiscard e st now).failed = s.failed := by
  unfold State.onDiscard
  rw [setTimer_flight, setTimer_failed, ← unackedBytes_eq]
  exact ⟨Flight.sub_bytes .., set_failed ..⟩

theorem discard_inv (x : Space) : SpaceInv x.discard := ⟨List.Pairwise.nil, (by intro p hp; cases hp), rfl⟩

/-- The sends after a call. -/
theorem sends_cons (e : Epoch) (o : Op) (os : List Op) :
    sends e (o :: os) = match o with
      | .send e' p _ _ => if e' = e then p :: sends e os else sends e os
      | _ => sends e os := by
  cases o <;> rfl

theorem sends_tail {e : Epoch} {o : Op} {os : List Op} {q : Pkt} (h : q ∈ sends e os) : q ∈ sends e (o :: os) := by
  rw [sends_cons]
  split
  · split
    · exact List.mem_cons_of_mem _ h
    · exact h
  · exact h

theorem sends_tail_sub (e : Epoch) (o : Op) (os : List Op) : (sends e os).Sublist (sends e (o :: os)) := by
  rw [sends_cons]
  split
  · split
    · exact List.sublist_cons_self ..
    · exact List.Sublist.refl _
  · exact List.Sublist.refl _

theorem WellSent.tail {o : Op} {os : List Op} (h : WellSent (o :: os)) : WellSent os :=
  ⟨fun e => (h.rising e).sublist (sends_tail_sub e o os), fun e p hp => h.probes e p ((sends_tail_sub e o os).subset hp)⟩

/-- Calls that send nothing keep or drop packets. -/
theorem step_from (en : Env σ) (s : State σ) (o : Op) (ho : ∀ e p st now, o ≠ .send e p st now) (e : Epoch) :
    From ((step en s o).1.get e) (s.get e) := by
  cases o with
  | send e' p st now => exact absurd rfl (ho e' p st now)
  | ack e' rs delay st now skip => exact onAck_from en s e' e rs delay st now skip
  | timeout st now =>
    show From ((s.onTimeout en st now).1.get e) (s.get e)
    unfold State.onTimeout
    split
    · dsimp only; rw [setTimer_get]; exact detectLost_from en s _ e now
    · intro p hp
      rw [(onPto_get s st now e).1] at hp
      exact List.mem_map_of_mem hp
  | discard e' st now =>
    show From ((s.onDiscard e' st now).get e) (s.get e)
    rw [onDiscard_get]
    split
    · intro p hp; cases hp
    · exact From.refl _
  | pathChange e' now => exact detectLost_from en s e' e now
  | pingSent e' =>
    intro p hp
    rw [(step_quiet en s _ (Or.inl ⟨e', rfl⟩) e).1] at hp; exact List.mem_map_of_mem hp
  | nextAcked e' =>
    intro p hp
    rw [(step_quiet en s _ (Or.inr (Or.inl ⟨e', rfl⟩)) e).1] at hp; exact List.mem_map_of_mem hp
  | nextLost e' =>
    intro p hp
    rw [(step_quiet en s _ (Or.inr (Or.inr (Or.inl ⟨e', rfl⟩))) e).1] at hp; exact List.mem_map_of_mem hp
  | ackDelay d =>
    intro p hp
    rw [(step_quiet en s _ (Or.inr (Or.inr (Or.inr ⟨d, rfl⟩))) e).1] at hp; exact List.mem_map_of_mem hp

/-- All packets sent so far are older than those still to be sent. -/
def AllBefore (s : State σ) (os : List Op) : Prop := ∀ e, Before (s.get e) (sends e os)

theorem step_before (en : Env σ) {s : State σ} {o : Op} {os : List Op} (hw : WellSent (o :: os)) (hb : AllBefore s (o :: os)) :
    AllBefore (step en s o).1 os := by
  intro e
  by_cases ho : ∃ e' p st now, o = .send e' p st now
  · obtain ⟨e', p, st, now, rfl⟩ := ho
    intro q hq r hr
    have hq' : q ∈ ((s.onSent en e' (p.sent now) st now).get e).sent := hq
    rw [onSent_get] at hq'
    split at hq'
    · rename_i he
      subst he
      rcases List.mem_append.1 hq' with hq' | hq'
      · exact hb e q hq' r (sends_tail hr)
      · rw [List.mem_singleton] at hq'; subst hq'
        have h1 := hw.rising e
        rw [sends_cons] at h1
        simp only [if_true] at h1
        exact (List.pairwise_cons.1 h1).1 r hr
    · exact hb e q hq' r (sends_tail hr)
  · have ho' : ∀ e p st now, o ≠ .send e p st now := fun e p st now h => ho ⟨e, p, st, now, h⟩
    exact before_of_static (step_from en s o ho' e) (fun p hp q hq => hb e p hp q (sends_tail hq))

theorem step_inv (en : Env σ) {s : State σ} {o : Op} {os : List Op} (hw : WellSent (o :: os)) (hb : AllBefore s (o :: os))
    (h : StateInv s) : StateInv (step en s o).1 := by
  cases o with
  | send e p st now =>
    intro e'
    show SpaceInv ((s.onSent en e (p.sent now) st now).get e')
    rw [onSent_get]
    split
    · have hin : p ∈ sends e (.send e p st now :: os) := by rw [sends_cons]; simp
      exact push_inv (h e) (p.sent now) now (fun q hq => hb e q hq p hin) (hw.probes e p hin) rfl
    · exact h e'
  | ack e rs delay st now skip => exact onAck_inv en h e rs delay st now skip
  | timeout st now =>
    show StateInv (s.onTimeout en st now).1
    unfold State.onTimeout
    split
    · intro e; dsimp only; rw [setTimer_get]; exact detectLost_inv en h _ _ e
    · exact stateInv_congr h (onPto_get s st now)
  | discard e st now =>
    intro e'
    show SpaceInv ((s.onDiscard e st now).get e')
    rw [onDiscard_get]
    split
    · exact discard_inv _
    · exact h e'
  | pathChange e now => exact detectLost_inv en h e now
  | pingSent e => exact stateInv_congr h fun e' => ⟨(step_quiet en s _ (Or.inl ⟨e, rfl⟩) e').1, (step_quiet en s _ (Or.inl ⟨e, rfl⟩) e').2.1⟩
  | nextAcked e =>
    have hq := step_quiet en s _ (Or.inr (Or.inl ⟨e, rfl⟩))
    exact stateInv_congr h fun e' => ⟨(hq e').1, (hq e').2.1⟩
  | nextLost e =>
    have hq := step_quiet en s _ (Or.inr (Or.inr (Or.inl ⟨e, rfl⟩)))
    exact stateInv_congr h fun e' => ⟨(hq e').1, (hq e').2.1⟩
  | ackDelay d =>
    have hq := step_quiet en s _ (Or.inr (Or.inr (Or.inr ⟨d, rfl⟩)))
    exact stateInv_congr h fun e' => ⟨(hq e').1, (hq e').2.1⟩

/-- Once failed, always failed. -/
theorem step_failed (en : Env σ) (s : State σ) (o : Op) (h : s.failed = true) : (step en s o).1.failed = true := by
  cases o with
  | send e p st now => exact (onSent_flight en s e (p.sent now) st now).2.trans h
  | ack e rs delay st now skip =>
    show (s.onAck en e rs delay st now skip).1.failed = true
    rcases onAck_cases en s e rs delay st now skip with ⟨_, he⟩ | ⟨_, _, he⟩ | ⟨_, last, _, he⟩
    · rw [he]
    · rw [he]
      show (s.set e _).failed = true
      rw [set_failed]; exact h
    · rw [he, ackTail_failed]
      show (s.set e _).failed = true
      rw [set_failed]; exact h
  | timeout st now =>
    show (s.onTimeout en st now).1.failed = true
    unfold State.onTimeout
    split
    · dsimp only; rw [setTimer_failed, detectLost_failed]; exact h
    · exact (onPto_flight s st now).2.trans h
  | discard e st now => exact (onDiscard_flight s e st now).2.trans h
  | pathChange e now => exact (detectLost_failed ..).trans h
  | pingSent e => exact (step_quiet en s _ (Or.inl ⟨e, rfl⟩) e).2.2.2.1.trans h
  | nextAcked e => exact (step_quiet en s _ (Or.inr (Or.inl ⟨e, rfl⟩)) e).2.2.2.1.trans h
  | nextLost e => exact (step_quiet en s _ (Or.inr (Or.inr (Or.inl ⟨e, rfl⟩))) e).2.2.2.1.trans h
  | ackDelay d => exact (step_quiet en s _ (Or.inr (Or.inr (Or.inr ⟨d, rfl⟩))) .initial).2.2.2.1.trans h

/-- The bytes in flight match the packets in flight after every call that does not
fail. -/
theorem step_bytes (en : Env σ) {s : State σ} {o : Op} (h : StateInv s) (hb : s.flight.bytes = total s)
    (hf : (step en s o).1.failed = false) : (step en s o).1.flight.bytes = total (step en s o).1 := by
  cases o with
  | send e p st now =>
    show (s.onSent en e (p.sent now) st now).flight.bytes = total (s.onSent en e (p.sent now) st now)
    rw [(onSent_flight ..).1, hb]
    have ht := total_set s e (((s.get e).onSent (p.sent now) now).push (p.sent now))
    have hc : total (s.onSent en e (p.sent now) st now) = total (s.set e (((s.get e).onSent (p.sent now) now).push (p.sent now))) :=
      total_congr fun e' => by rw [onSent_get, get_set]
    rw [hc]
    have hw : weight (outstanding (((s.get e).onSent (p.sent now) now).push (p.sent now)).sent) =
        weight (outstanding (s.get e).sent) + (if (p.sent now).inFlight = true then (p.sent now).size else 0) := by
      show weight (outstanding ((s.get e).sent ++ [p.sent now])) = _
      rw [outstanding_append, weight_append, outstanding_cons]
      have hl : (p.sent now).live = true := rfl
      cases hi : (p.sent now).inFlight <;> simp [Sent.open, hi, hl]
    omega
  | ack e rs delay st now skip =>
    show (s.onAck en e rs delay st now skip).1.flight.bytes = total (s.onAck en e rs delay st now skip).1
    have hf' : (s.onAck en e rs delay st now skip).1.failed = false := hf
    have hab := acked_bytes now s.rtt.smoothed skip rs (s.get e)
    have ht := total_set s e ((s.get e).acked now s.rtt.smoothed skip rs).2.2
    have hsp : ∀ a, total ((s.set e ((s.get e).acked now s.rtt.smoothed skip rs).2.2).spurious en a) =
        total (s.set e ((s.get e).acked now s.rtt.smoothed skip rs).2.2) := fun a => rfl
    have hsf : ∀ a, ((s.set e ((s.get e).acked now s.rtt.smoothed skip rs).2.2).spurious en a).flight = s.flight := by
      intro a
      show (s.set e _).flight = s.flight
      rw [set_flight]
    rcases onAck_cases en s e rs delay st now skip with ⟨_, he⟩ | ⟨_, hn, he⟩ | ⟨_, last, hl, he⟩
    · rw [he] at hf'; cases hf'
    · rw [he]
      dsimp only
      rw [hsp, hsf]
      have hz := acked_none_bytes now s.rtt.smoothed skip rs (s.get e) hn
      omega
    · rw [he, ackTail_flight]
      have hinv := ackedSet_inv h en e now skip rs ((s.get e).acked now s.rtt.smoothed skip rs).2.1
      have hmid := ackMid_inv en hinv e ((s.get e).acked now s.rtt.smoothed skip rs).2.1 last delay st now
      have hd := detectLost_bytes en hmid e now ((s.get e).acked now s.rtt.smoothed skip rs).2.1.bytes (by
        rw [ackMid_flight, ackMid_total, hsf, hsp]; omega)
      rw [hd, Nat.add_sub_cancel]
      symm
      have hout : ∀ e', outstanding ((((s.set e ((s.get e).acked now s.rtt.smoothed skip rs).2.2).spurious en
          ((s.get e).acked now s.rtt.smoothed skip rs).2.1).ackTail en e ((s.get e).acked now s.rtt.smoothed skip rs).2.1 last
          delay st now).1.get e').sent = outstanding (((ackMid en ((s.set e ((s.get e).acked now s.rtt.smoothed skip rs).2.2).spurious en
          ((s.get e).acked now s.rtt.smoothed skip rs).2.1) e ((s.get e).acked now s.rtt.smoothed skip rs).2.1 last delay st
          now).detectLost en e now).2.get e').sent := by
        intro e'
        obtain ⟨t, hg⟩ := ackTail_get en ((s.set e ((s.get e).acked now s.rtt.smoothed skip rs).2.2).spurious en
          ((s.get e).acked now s.rtt.smoothed skip rs).2.1) e e' ((s.get e).acked now s.rtt.smoothed skip rs).2.1 last delay st now
        rw [hg]
        split
        · rename_i hee; subst hee; dsimp only; rw [drain_out]
        · rfl
      exact total_out_congr hout
  | timeout st now =>
    show (s.onTimeout en st now).1.flight.bytes = total (s.onTimeout en st now).1
    unfold State.onTimeout
    split
    · exact detectLost_bytes en h _ now 0 hb
    · dsimp only
      rw [(onPto_flight s st now).1, total_congr fun e => (onPto_get s st now e).1]
      exact hb
  | discard e st now =>
    show (s.onDiscard e st now).flight.bytes = total (s.onDiscard e st now)
    rw [(onDiscard_flight ..).1, hb]
    have hc : total (s.onDiscard e st now) = total (s.set e (s.get e).discard) :=
      total_congr fun e' => by rw [onDiscard_get, get_set]
    have ht := total_set s e (s.get e).discard
    have hz : weight (outstanding (s.get e).discard.sent) = 0 := rfl
    rw [hc]
    omega
  | pathChange e now => exact detectLost_bytes en h _ now 0 hb
  | pingSent e =>
    have hq := step_quiet en s _ (Or.inl ⟨e, rfl⟩)
    rw [(hq e).2.2.1, total_congr fun e' => (hq e').1]; exact hb
  | nextAcked e =>
    have hq := step_quiet en s _ (Or.inr (Or.inl ⟨e, rfl⟩))
    rw [(hq e).2.2.1, total_congr fun e' => (hq e').1]; exact hb
  | nextLost e =>
    have hq := step_quiet en s _ (Or.inr (Or.inr (Or.inl ⟨e, rfl⟩)))
    rw [(hq e).2.2.1, total_congr fun e' => (hq e').1]; exact hb
  | ackDelay d =>
    have hq := step_quiet en s _ (Or.inr (Or.inr (Or.inr ⟨d, rfl⟩)))
    rw [(hq .initial).2.2.1, total_congr fun e' => (hq e').1]; exact hb

end Verif.Rec
