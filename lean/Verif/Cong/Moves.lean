import Verif.Cong.Model
import Verif.Rec.Account
import Verif.Rec.Fate

/-!
What a call of loss recovery does to the congestion controller.
-/

namespace Verif.Cong

open Verif.Rec

variable {σ : Type}

/-- Whether the loss of a packet is a sign of congestion: it was in flight and no probe of
the path MTU. -/
def counts (p : Sent) : Bool := p.inFlight && !p.probe

/-- The newest of the packets declared lost whose loss is a sign of congestion. -/
def newest (l : List Sent) : Option Sent := (l.filter counts).getLast?

theorem newest_mem {l : List Sent} {p : Sent} (h : newest l = some p) : p ∈ l ∧ counts p = true := by
  have := List.mem_of_mem_getLast? (show p ∈ (l.filter counts).getLast? from h)
  exact List.mem_filter.1 this

theorem loseAcc_largest (a : LossAcc) (p : Sent) (h : a.largest = newest a.lost) :
    (loseAcc a p).largest = newest (loseAcc a p).lost := by
  unfold loseAcc newest at *
  split
  · rename_i hp; simp [List.filter_append, List.filter_cons, counts, hp, h]
  · rename_i hp
    split
    · rename_i hf; simp [List.filter_append, List.filter_cons, counts, hp, hf]
    · rename_i hf; simp [List.filter_append, List.filter_cons, counts, hp, hf, h]

theorem loseLoop_largest (d t now lg : Nat) : ∀ (l : List Sent) (a : LossAcc), a.largest = newest a.lost →
    (loseLoop d t now lg a l).1.largest = newest (loseLoop d t now lg a l).1.lost := by
  intro l
  induction l with
  | nil => intro a h; exact h
  | cons p l ih =>
    intro a h
    unfold loseLoop
    split
    · exact h
    · split
      · exact ih a h
      · split
        · exact ih _ (loseAcc_largest a p h)
        · exact h

theorem lose_largest (d t now : Nat) (x : Space) : (x.lose d t now).1.largest = newest (x.lose d t now).1.lost :=
  loseLoop_largest _ _ _ _ _ _ rfl

/-- What the controller is told of a loss. -/
def lossWith (c : Cc σ) (x : σ) (flight bytes now : Nat) : Option Sent → σ
  | none => x
  | some p => c.event (if c.inRecovery x p.timeSent = true then x else c.checkpoint x) flight bytes p.timeSent now

/-- The time of a call. -/
def opTime : Op → Option Nat
  | .send _ _ _ now => some now
  | .ack _ _ _ _ now _ => some now
  | .timeout _ now => some now
  | .discard _ _ now => some now
  | .pathChange _ now => some now
  | _ => none

/-- What a call may do to the controller, by its outcome. -/
inductive Move (c : Cc σ) (s : State σ) : Op → Out → σ → Prop
  | same {o : Op} {out : Out} (h : out.lost = []) : Move c s o out s.cc
  | sent {e : Epoch} {p : Pkt} {st : Status} {now : Nat} :
      Move c s (.send e p st now) Out.none (c.onSent s.cc s.flight.bytes (p.sent now).size now p.pn p.inFlight)
  | rolled {e : Epoch} {rs : List (Nat × Nat)} {d : Nat} {st : Status} {now : Nat} {sk : Option Nat} :
      Move c s (.ack e rs d st now sk) Out.none (c.rollback s.cc)
  | lost {o : Op} {out : Out} (now : Nat) (ho : opTime o = some now) (ha : out.acked = []) (bytes n : Nat)
      (hl : ∀ p ∈ out.lost, ∃ e, p ∈ (s.get e).sent) :
      Move c s o out (c.addLost (lossWith c s.cc s.flight.bytes bytes now (newest out.lost)) n)
  | acked {e : Epoch} {rs : List (Nat × Nat)} {d : Nat} {st : Status} {now : Nat} {sk : Option Nat} {out : Out}
      (sp : Bool) (hsp : sp = true → out.counts.2.2.2 ≠ 0) (flight bytes n : Nat) (r : Rtt)
      (ha : ∀ a ∈ out.acked, ∃ p ∈ (s.get e).sent, a.timeSent = p.timeSent ∧ a.size = p.size)
      (hl : ∀ p ∈ out.lost, ∃ q ∈ (s.get e).sent, p.timeSent = q.timeSent) :
      Move c s (.ack e rs d st now sk) out
        (c.onAcked (c.addLost (lossWith c (if sp = true then c.rollback s.cc else s.cc) s.flight.bytes bytes now (newest out.lost)) n)
          flight out.acked r now)

/-! ### What an ACK frame names -/

theorem ackPkt_spurious (now lg : Nat) (a : AckAcc) (p : Sent) (h : a.inFlightSpurious = true → a.spurious ≠ 0) :
    (ackPkt now lg a p).1.inFlightSpurious = true → (ackPkt now lg a p).1.spurious ≠ 0 := by
  unfold ackPkt
  split
  · exact h
  · split
    · intro _; simp [ackSpurious]
    · exact h

theorem ackRange_spurious (now lg lo hi : Nat) : ∀ (l : List Sent) (a : AckAcc), (a.inFlightSpurious = true → a.spurious ≠ 0) →
    (ackRange now lg lo hi a l).1.inFlightSpurious = true → (ackRange now lg lo hi a l).1.spurious ≠ 0 := by
  intro l
  induction l with
  | nil => intro a h; exact h
  | cons p l ih =>
    intro a h
    unfold ackRange
    split
    · exact ih a h
    · split
      · exact h
      · exact ih _ (ackPkt_spurious now lg a p h)

theorem ackRanges_spurious (now lg : Nat) (sk : Option Nat) : ∀ (rs : List (Nat × Nat)) (a : AckAcc) (l : List Sent),
    (a.inFlightSpurious = true → a.spurious ≠ 0) →
    (ackRanges now lg sk rs a l).2.1.inFlightSpurious = true → (ackRanges now lg sk rs a l).2.1.spurious ≠ 0 := by
  intro rs
  induction rs with
  | nil => intro a l h; exact h
  | cons r rs ih =>
    intro a l h
    unfold ackRanges
    split
    · exact h
    · exact ih _ _ (ackRange_spurious now lg r.1 r.2 l a h)

theorem acked_acc (now rtt : Nat) (sk : Option Nat) (rs : List (Nat × Nat)) (x : Space) :
    (x.acked now rtt sk rs).2.1 =
      (ackRanges now (Nat.max (x.largestAcked.getD 0) (lastOf rs)) sk rs ⟨x.inFlightCount, 0, 0, none, false, false, [], x.ackedFrames⟩ x.sent).2.1 := by
  unfold Space.acked
  dsimp only
  split <;> rfl

theorem acked_spurious (now rtt : Nat) (sk : Option Nat) (rs : List (Nat × Nat)) (x : Space) :
    (x.acked now rtt sk rs).2.1.inFlightSpurious = true → (x.acked now rtt sk rs).2.1.spurious ≠ 0 := by
  rw [acked_acc]
  exact ackRanges_spurious _ _ _ _ _ _ (by intro h; cases h)

/-- The packets found in `l` are packets of `m`. -/
def Known (a : AckAcc) (m : List Sent) : Prop := ∀ x ∈ a.newly, ∃ p ∈ m, x.timeSent = p.timeSent ∧ x.size = p.size

theorem ackPkt_known (now lg : Nat) (a : AckAcc) (p : Sent) {m : List Sent} (hp : ∃ q ∈ m, p.static = q.static) (h : Known a m) :
    Known (ackPkt now lg a p).1 m := by
  unfold ackPkt
  split
  · exact h
  · split
    · exact h
    · intro x hx
      simp only [ackNew, List.mem_append, List.mem_singleton] at hx
      rcases hx with hx | hx
      · exact h x hx
      · obtain ⟨q, hq, he⟩ := hp
        subst hx
        simp only [Sent.static, Prod.mk.injEq] at he
        exact ⟨q, hq, he.2.2.1, he.2.1⟩

theorem ackRange_known (now lg lo hi : Nat) {m : List Sent} : ∀ (l : List Sent) (a : AckAcc),
    (∀ p ∈ l, ∃ q ∈ m, p.static = q.static) → Known a m → Known (ackRange now lg lo hi a l).1 m := by
  intro l
  induction l with
  | nil => intro a _ h; exact h
  | cons p l ih =>
    intro a hl h
    unfold ackRange
    have hl' : ∀ p ∈ l, ∃ q ∈ m, p.static = q.static := fun q hq => hl q (List.mem_cons_of_mem _ hq)
    split
    · exact ih a hl' h
    · split
      · exact h
      · exact ih _ hl' (ackPkt_known now lg a p (hl p List.mem_cons_self) h)

theorem ackRange_static' (now lg lo hi : Nat) {m : List Sent} : ∀ (l : List Sent) (a : AckAcc),
    (∀ p ∈ l, ∃ q ∈ m, p.static = q.static) → ∀ p ∈ (ackRange now lg lo hi a l).2, ∃ q ∈ m, p.static = q.static := by
  intro l
  induction l with
  | nil => intro a h; exact h
  | cons p l ih =>
    intro a hl
    have hl' : ∀ p ∈ l, ∃ q ∈ m, p.static = q.static := fun q hq => hl q (List.mem_cons_of_mem _ hq)
    have hp := hl p List.mem_cons_self
    unfold ackRange
    split
    · intro q hq
      rcases List.mem_cons.1 hq with hq | hq
      · subst hq; exact hp
      · exact ih a hl' q hq
    · split
      · exact hl
      · intro q hq
        rcases List.mem_cons.1 hq with hq | hq
        · subst hq; rw [ackPkt_static]; exact hp
        · exact ih _ hl' q hq

theorem ackRanges_known (now lg : Nat) (sk : Option Nat) {m : List Sent} : ∀ (rs : List (Nat × Nat)) (a : AckAcc) (l : List Sent),
    (∀ p ∈ l, ∃ q ∈ m, p.static = q.static) → Known a m → Known (ackRanges now lg sk rs a l).2.1 m := by
  intro rs
  induction rs with
  | nil => intro a l _ h; exact h
  | cons r rs ih =>
    intro a l hl h
    unfold ackRanges
    split
    · exact h
    · exact ih _ _ (ackRange_static' now lg r.1 r.2 l a hl) (ackRange_known now lg r.1 r.2 l a hl h)

theorem acked_known (now rtt : Nat) (sk : Option Nat) (rs : List (Nat × Nat)) (x : Space) :
    ∀ a ∈ (x.acked now rtt sk rs).2.1.newly, ∃ p ∈ x.sent, a.timeSent = p.timeSent ∧ a.size = p.size := by
  rw [acked_acc]
  exact ackRanges_known _ _ _ _ _ _ (fun p hp => ⟨p, hp, rfl⟩) (by intro a ha; cases ha)

/-! ### The move of a call -/

theorem ccLoss_eq (c : Cc σ) (x : σ) (flight : Nat) (a : LossAcc) (now : Nat) :
    ccLoss c x flight a now = lossWith c x flight a.bytes now a.largest := by
  unfold ccLoss lossWith
  cases a.largest <;> rfl

theorem detectLost_cc (en : Env σ) (s : State σ) (e : Epoch) (now : Nat) :
    (s.detectLost en e now).2.cc =
      en.cc.addLost (lossWith en.cc s.cc s.flight.bytes (s.detectLost en e now).1.bytes now (newest (s.detectLost en e now).1.lost))
        (s.detectLost en e now).1.packets := by
  unfold State.detectLost
  dsimp only
  rw [ccLoss_eq, lose_largest]

theorem detectLost_lost (en : Env σ) (s : State σ) (e : Epoch) (now : Nat) : ∀ p ∈ (s.detectLost en e now).1.lost, p ∈ (s.get e).sent := by
  intro p hp
  exact (lose_tests _ _ _ _ p hp).1

theorem set_cc (s : State σ) (e : Epoch) (x : Space) : (s.set e x).cc = s.cc := by cases e <;> rfl

theorem set_flight (s : State σ) (e : Epoch) (x : Space) : (s.set e x).flight = s.flight := by cases e <;> rfl

theorem ackTail_cc (en : Env σ) (s : State σ) (e : Epoch) (a : AckAcc) (last : Acked) (delay : Nat) (st : Status) (now : Nat) :
    ∃ flight bytes n r,
    (s.ackTail en e a last delay st now).1.cc =
      en.cc.onAcked (en.cc.addLost (lossWith en.cc s.cc s.flight.bytes bytes now (newest (s.ackTail en e a last delay st now).2.lost)) n)
        flight a.newly r now := by
  have h := detectLost_cc en (ackMid en s e a last delay st now) e now
  have h1 : (ackMid en s e a last delay st now).cc = s.cc := by
    unfold ackMid; exact set_cc s e _
  have h2 : (ackMid en s e a last delay st now).flight = s.flight := ackMid_flight en s e a last delay st now
  rw [h1, h2] at h
  refine ⟨((ackMid en s e a last delay st now).detectLost en e now).2.flight.bytes,
    ((ackMid en s e a last delay st now).detectLost en e now).1.bytes,
    ((ackMid en s e a last delay st now).detectLost en e now).1.packets,
    ((ackMid en s e a last delay st now).detectLost en e now).2.rtt, ?_⟩
  unfold State.ackTail
  dsimp only
  rw [set_cc]
  show en.cc.onAcked ((ackMid en s e a last delay st now).detectLost en e now).2.cc _ a.newly _ now = _
  rw [h]

theorem step_move (en : Env σ) (s : State σ) (o : Op) : Move en.cc s o (step en s o).2 (step en s o).1.cc := by
  cases o with
  | send e p st now =>
    show Move en.cc s _ Out.none (s.onSent en e (p.sent now) st now).cc
    have : (s.onSent en e (p.sent now) st now).cc = en.cc.onSent s.cc s.flight.bytes (p.sent now).size now p.pn p.inFlight := by
      unfold State.onSent
      dsimp only
      rw [set_cc]
      unfold State.sentInFlight
      split
      · show (State.set _ e _).cc = _
        rw [set_cc]; rfl
      · rw [set_cc]; rfl
    rw [this]
    exact .sent
  | ack e rs d st now sk =>
    show Move en.cc s _ (s.onAck en e rs d st now sk).2 (s.onAck en e rs d st now sk).1.cc
    rcases onAck_cases en s e rs d st now sk with ⟨_, he⟩ | ⟨_, _, he⟩ | ⟨_, last, _, he⟩
    · rw [he]
      show Move en.cc s _ _ (s.set e _).cc
      rw [set_cc]
      exact .same rfl
    · rw [he]
      show Move en.cc s _ _ (if _ = true then en.cc.rollback (s.set e _).cc else (s.set e _).cc)
      rw [set_cc]
      split
      · exact .rolled
      · exact .same rfl
    · rw [he]
      obtain ⟨flight, bytes, n, r, hc⟩ := ackTail_cc en
        ((s.set e ((s.get e).acked now s.rtt.smoothed sk rs).2.2).spurious en ((s.get e).acked now s.rtt.smoothed sk rs).2.1) e
        ((s.get e).acked now s.rtt.smoothed sk rs).2.1 last d st now
      rw [hc]
      have h1 : ((s.set e ((s.get e).acked now s.rtt.smoothed sk rs).2.2).spurious en ((s.get e).acked now s.rtt.smoothed sk rs).2.1).flight
          = s.flight := set_flight s e _
      have h2 : ((s.set e ((s.get e).acked now s.rtt.smoothed sk rs).2.2).spurious en ((s.get e).acked now s.rtt.smoothed sk rs).2.1).cc
          = if ((s.get e).acked now s.rtt.smoothed sk rs).2.1.inFlightSpurious = true then en.cc.rollback s.cc else s.cc := by
        show (if _ = true then en.cc.rollback (s.set e _).cc else (s.set e _).cc) = _
        rw [set_cc]
      rw [h1, h2]
      refine Move.acked (((s.get e).acked now s.rtt.smoothed sk rs).2.1.inFlightSpurious)
        (acked_spurious now s.rtt.smoothed sk rs (s.get e)) flight bytes n r (acked_known now s.rtt.smoothed sk rs (s.get e)) ?_
      intro p hp
      have hp' := detectLost_lost en (ackMid en _ e ((s.get e).acked now s.rtt.smoothed sk rs).2.1 last d st now) e now p hp
      rw [(ackMid_sent _ _ _ _ _ _ _ _ _).1, spurious_get] at hp'
      have := ackedSet_from s e e now sk rs p hp'
      obtain ⟨q, hq, hs⟩ := List.mem_map.1 this
      simp only [Sent.static, Prod.mk.injEq] at hs
      exact ⟨q, hq, hs.2.2.1.symm⟩
  | timeout st now =>
    show Move en.cc s _ (s.onTimeout en st now).2 (s.onTimeout en st now).1.cc
    unfold State.onTimeout
    split
    · dsimp only
      show Move en.cc s _ _ (s.detectLost en s.lossTimeAndSpace.2 now).2.cc
      rw [detectLost_cc]
      exact Move.lost (out := ⟨s.lossTimeAndSpace.2, [], (s.detectLost en s.lossTimeAndSpace.2 now).1.lost, _⟩) now rfl rfl _ _
        (fun p hp => ⟨_, detectLost_lost en s _ now p hp⟩)
    · have : (s.onPto st now).cc = s.cc := by
        unfold State.onPto
        exact set_cc _ _ _
      rw [this]
      exact .same rfl
  | discard e st now =>
    show Move en.cc s _ Out.none (s.onDiscard e st now).cc
    have : (s.onDiscard e st now).cc = s.cc := set_cc s e _
    rw [this]
    exact .same rfl
  | pathChange e now =>
    show Move en.cc s _ (s.onPathChange en e now).2 (s.detectLost en e now).2.cc
    rw [detectLost_cc]
    exact Move.lost (out := (s.onPathChange en e now).2) now rfl rfl _ _ (fun p hp => ⟨_, detectLost_lost en s _ now p hp⟩)
  | pingSent e =>
    show Move en.cc s _ Out.none (s.pingSent e).cc
    have : (s.pingSent e).cc = s.cc := set_cc s e _
    rw [this]; exact .same rfl
  | nextAcked e =>
    show Move en.cc s _ Out.none (s.nextAcked e).cc
    have : (s.nextAcked e).cc = s.cc := set_cc s e _
    rw [this]; exact .same rfl
  | nextLost e =>
    show Move en.cc s _ Out.none (s.set e (s.get e).nextLost).cc
    rw [set_cc]; exact .same rfl
  | ackDelay d => exact .same rfl

/-! ### Times -/

/-- All packets were sent by the time `T`. -/
def SentBy (T : Nat) (s : State σ) : Prop := ∀ e, ∀ p ∈ (s.get e).sent, p.timeSent ≤ T

theorem step_sentBy (en : Env σ) {s : State σ} {T : Nat} (h : SentBy T s) (o : Op) (ho : ∀ now, opTime o = some now → T ≤ now) :
    SentBy ((opTime o).getD T) (step en s o).1 := by
  have hT : T ≤ (opTime o).getD T := by
    cases h : opTime o with
    | none => exact Nat.le_refl _
    | some now => exact ho now h
  by_cases hs : ∃ e p st now, o = .send e p st now
  · obtain ⟨e', p, st, now, rfl⟩ := hs
    intro e q hq
    have hq' : q ∈ ((s.onSent en e' (p.sent now) st now).get e).sent := hq
    rw [onSent_get] at hq'
    split at hq'
    · rename_i he
      subst he
      rcases List.mem_append.1 hq' with hq' | hq'
      · exact Nat.le_trans (h e q hq') hT
      · rw [List.mem_singleton] at hq'; subst hq'; exact Nat.le_refl _
    · exact Nat.le_trans (h e q hq') hT
  · intro e q hq
    have := step_from en s o (fun e p st now h => hs ⟨e, p, st, now, h⟩) e q hq
    obtain ⟨x, hx, he⟩ := List.mem_map.1 this
    simp only [Sent.static, Prod.mk.injEq] at he
    rw [← he.2.2.1]
    exact Nat.le_trans (h e x hx) hT

end Verif.Cong
