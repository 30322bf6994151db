import Verif.Props.C47
import Verif.Props.C48

/-!
C88. Losses are found completely: after an ACK that acknowledges something new (and after
a loss timeout), no packet of the space is left open that is behind the largest
acknowledged one by the packet threshold or that was sent a loss delay ago; and if an open
packet below the largest acknowledged one is left, a loss time is pending, which is the
time of the earliest of them plus the loss delay. So every packet that is overtaken is
eventually declared lost or acknowledged (but see C48 for the timer in Initial and
Handshake spaces).
-/

namespace Verif.Props.C88

open Verif.Rec
open Verif.Props.C46 (s0 data run_inv new_inv new_before)

open Verif.Props.C48 (en98)

variable {σ : Type}

/-- Packets with higher numbers were not sent earlier. -/
def Ordered (x : Space) : Prop := ∀ p ∈ x.sent, ∀ q ∈ x.sent, p.pn < q.pn → p.timeSent ≤ q.timeSent

/-- The packets that are open and below the largest acknowledged one. -/
def Overtaken (x : Space) (p : Sent) : Prop := p ∈ x.sent ∧ p.live = true ∧ p.pn ≤ x.largestAcked.getD 0

/-- What is claimed of a space after loss detection. -/
structure Complete (delay thresh now : Nat) (x : Space) : Prop where
  threshold : ∀ p, Overtaken x p → x.largestAcked.getD 0 < p.pn + thresh
  time : ∀ p, Overtaken x p → now < p.timeSent + delay
  pending : ∀ p, Overtaken x p → ∃ t, x.lossTime = some t ∧ t ≤ p.timeSent + delay
  exact : ∀ t, x.lossTime = some t → ∃ p, Overtaken x p ∧ t = p.timeSent + delay

theorem loseLoop_complete (d t now lg : Nat) : ∀ (l : List Sent) (a : LossAcc), Sorted l →
    (∀ p ∈ l, ∀ q ∈ l, p.pn < q.pn → p.timeSent ≤ q.timeSent) → a.lossTime = none →
    (∀ p ∈ (loseLoop d t now lg a l).2, p.live = true → p.pn ≤ lg →
      lg < p.pn + t ∧ now < p.timeSent + d ∧ ∃ u, (loseLoop d t now lg a l).1.lossTime = some u ∧ u ≤ p.timeSent + d) ∧
    ∀ u, (loseLoop d t now lg a l).1.lossTime = some u →
      ∃ p ∈ (loseLoop d t now lg a l).2, p.live = true ∧ p.pn ≤ lg ∧ u = p.timeSent + d
  | [], a, _, _, ha => ⟨(by intro p hp; simp [loseLoop] at hp), (by intro u hu; unfold loseLoop at hu; rw [ha] at hu; cases hu)⟩
  | p :: l, a, hs, hm, ha => by
    have hs' : Sorted l := (List.pairwise_cons.1 hs).2
    have hlt := (List.pairwise_cons.1 hs).1
    have hm' : ∀ x ∈ l, ∀ q ∈ l, x.pn < q.pn → x.timeSent ≤ q.timeSent := fun x hx q hq => hm x (List.mem_cons_of_mem _ hx) q (List.mem_cons_of_mem _ hq)
    unfold loseLoop
    split
    · rename_i h1
      refine ⟨?_, by intro u hu; rw [ha] at hu; cases hu⟩
      intro q hq _ hle
      rcases List.mem_cons.1 hq with rfl | hq
      · omega
      · have := hlt q hq; omega
    · split
      · rename_i h1 h2
        obtain ⟨i1, i2⟩ := loseLoop_complete d t now lg l a hs' hm' ha
        refine ⟨?_, ?_⟩
        · intro q hq hl hle
          rcases List.mem_cons.1 hq with rfl | hq
          · rw [h2] at hl; cases hl
          · exact i1 q hq hl hle
        · intro u hu
          obtain ⟨q, hq, h⟩ := i2 u hu
          exact ⟨q, List.mem_cons_of_mem _ hq, h⟩
      · split
        · rename_i h1 h2 h3
          have ha' : (loseAcc a p).lossTime = none := by
            unfold loseAcc
            split
            · exact ha
            · split <;> exact ha
          obtain ⟨i1, i2⟩ := loseLoop_complete d t now lg l (loseAcc a p) hs' hm' ha'
          refine ⟨?_, ?_⟩
          · intro q hq hl hle
            rcases List.mem_cons.1 hq with rfl | hq
            · simp [Sent.live] at hl
            · exact i1 q hq hl hle
          · intro u hu
            obtain ⟨q, hq, h⟩ := i2 u hu
            exact ⟨q, List.mem_cons_of_mem _ hq, h⟩
        · rename_i h1 h2 h3
          have h3' : ¬ (p.timeSent ≤ now - d ∨ lg ≥ p.pn + t) := by simpa [isLost] using h3
          have hlive : p.live = true := by cases hx : p.live <;> simp_all
          have he : earlier a.lossTime (p.timeSent + d) = p.timeSent + d := by rw [ha]; rfl
          refine ⟨?_, ?_⟩
          · intro q hq hl hle
            dsimp only
            rw [he]
            rcases List.mem_cons.1 hq with rfl | hq
            · exact ⟨by omega, by omega, _, rfl, Nat.le_refl _⟩
            · have h4 := hlt q hq
              have h5 := hm p List.mem_cons_self q (List.mem_cons_of_mem _ hq) h4
              exact ⟨by omega, by omega, _, rfl, by omega⟩
          · intro u hu
            dsimp only at hu
            rw [he] at hu
            cases hu
            exact ⟨p, List.mem_cons_self, hlive, by omega, rfl⟩

theorem ordered_of_from {x y : Space} (h : From x y) (hy : Ordered y) : Ordered x := by
  intro p hp q hq hlt
  obtain ⟨p', hp', he⟩ := List.mem_map.1 (h p hp)
  obtain ⟨q', hq', hf⟩ := List.mem_map.1 (h q hq)
  simp only [Sent.static, Prod.mk.injEq] at he hf
  have := hy p' hp' q' hq' (by omega)
  omega

/-- Removing packets at the front that are acknowledged or lost changes nothing. -/
theorem drain_live {t : Nat} : ∀ {l : List Sent} {p : Sent}, p ∈ l → p.live = true → p ∈ drain t l
  | q :: l, p, hp, hl => by
    unfold drain
    split
    · exact hp
    · split
      · exact hp
      · rename_i h
        rcases List.mem_cons.1 hp with rfl | hp
        · exact absurd hl h
        · exact drain_live hp hl

theorem Complete.drain {d t now u : Nat} {x : Space} (h : Complete d t now x) : Complete d t now { x with sent := drain u x.sent } := by
  have e : ∀ p, Overtaken { x with sent := Rec.drain u x.sent } p ↔ Overtaken x p :=
    fun p => ⟨fun hp => ⟨drain_mem hp.1, hp.2⟩, fun hp => ⟨drain_live hp.1 hp.2.1, hp.2⟩⟩
  refine ⟨fun p hp => h.threshold p ((e p).1 hp), fun p hp => h.time p ((e p).1 hp), fun p hp => h.pending p ((e p).1 hp), ?_⟩
  intro t ht
  obtain ⟨p, hp, he⟩ := h.exact t ht
  exact ⟨p, (e p).2 hp, he⟩

theorem lose_complete (d t now : Nat) {x : Space} (h : SpaceInv x) (ho : Ordered x) :
    Complete (Nat.max d granularity) t now (x.lose d t now).2 := by
  obtain ⟨i1, i2⟩ := loseLoop_complete (Nat.max d granularity) t now (x.largestAcked.getD 0) x.sent
    ⟨x.inFlightCount, 0, 0, 0, none, none, x.lostAck, []⟩ h.sorted ho rfl
  refine ⟨fun p hp => (i1 p hp.1 hp.2.1 hp.2.2).1, fun p hp => (i1 p hp.1 hp.2.1 hp.2.2).2.1, fun p hp => (i1 p hp.1 hp.2.1 hp.2.2).2.2, ?_⟩
  intro u hu
  obtain ⟨p, h1, h2, h3, h4⟩ := i2 u hu
  exact ⟨p, ⟨h1, h2, h3⟩, h4⟩

/-- The loss delay of a state: the greater of the latest and the smoothed RTT, scaled by
the time threshold in use, at least 1 ms. -/
def delayOf (en : Env σ) (s : State σ) : Nat := Nat.max (en.scale s.reordered (Nat.max s.rtt.latest s.rtt.smoothed)) granularity

theorem detectLost_complete (en : Env σ) {s : State σ} (e : Epoch) (now : Nat) (h : SpaceInv (s.get e)) (ho : Ordered (s.get e)) :
    Complete (delayOf en s) s.pktThresh now ((s.detectLost en e now).2.get e) := by
  have := (lose_complete (s.lossDelay en) s.pktThresh now h ho).drain (u := now - s.rtt.smoothed)
  have hg : (s.detectLost en e now).2.get e =
      { ((s.get e).lose (s.lossDelay en) s.pktThresh now).2 with sent := drain (now - s.rtt.smoothed) ((s.get e).lose (s.lossDelay en) s.pktThresh now).2.sent } := by
    cases e <;> rfl
  rw [hg]
  exact this

/-- After an ACK. -/
theorem ack_complete (en : Env σ) {s : State σ} (h : StateInv s) (e : Epoch) (ho : Ordered (s.get e)) (ranges : List (Nat × Nat)) (delay : Nat)
    (st : Status) (now : Nat) (skip : Option Nat) (hn : (step en s (.ack e ranges delay st now skip)).2.acked ≠ [])
    (hf : (step en s (.ack e ranges delay st now skip)).1.failed = false) :
    let s' := (step en s (.ack e ranges delay st now skip)).1
    Complete (delayOf en s') s'.pktThresh now (s'.get e) := by
  have hn' : (s.onAck en e ranges delay st now skip).2.acked ≠ [] := hn
  have hf' : (s.onAck en e ranges delay st now skip).1.failed = false := hf
  show Complete (delayOf en (s.onAck en e ranges delay st now skip).1) (s.onAck en e ranges delay st now skip).1.pktThresh now
    ((s.onAck en e ranges delay st now skip).1.get e)
  rcases onAck_cases en s e ranges delay st now skip with ⟨_, he⟩ | ⟨hnf, hno, he⟩ | ⟨hnf, last, hl, he⟩
  · rw [he] at hf'; cases hf'
  · rw [he] at hn'; exact absurd rfl hn'
  · rw [he]
    generalize hu : (s.set e ((s.get e).acked now s.rtt.smoothed skip ranges).2.2).spurious en ((s.get e).acked now s.rtt.smoothed skip ranges).2.1 = u
    generalize ((s.get e).acked now s.rtt.smoothed skip ranges).2.1 = a at *
    have hui : SpaceInv (u.get e) := by
      rw [← hu, spurious_get, get_set_same]; exact acked_inv _ _ _ _ (h e)
    have huo : Ordered (u.get e) := by
      rw [← hu, spurious_get, get_set_same]; exact ordered_of_from (acked_mem now s.rtt.smoothed skip ranges (s.get e)) ho
    have hmi : SpaceInv ((ackMid en u e a last delay st now).get e) := by
      cases e <;> exact ⟨hui.sorted, hui.probes, hui.count⟩
    have hmo : Ordered ((ackMid en u e a last delay st now).get e) := by cases e <;> exact huo
    have hc := detectLost_complete en e now hmi hmo
    obtain ⟨t, ht⟩ := ackTail_get en u e e a last delay st now
    rw [ht, if_pos rfl]
    have e1 : delayOf en (u.ackTail en e a last delay st now).1 = delayOf en (ackMid en u e a last delay st now) := by cases e <;> rfl
    have e2 : (u.ackTail en e a last delay st now).1.pktThresh = (ackMid en u e a last delay st now).pktThresh := by cases e <;> rfl
    rw [e1, e2]
    exact hc.drain

/-- After a timeout with a loss time found, in the space it was found in. -/
theorem timeout_complete (en : Env σ) {s : State σ} (h : StateInv s) (st : Status) (now : Nat) (hl : s.lossTimeAndSpace.1.isSome = true)
    (ho : Ordered (s.get s.lossTimeAndSpace.2)) :
    let s' := (step en s (.timeout st now)).1
    Complete (delayOf en s') s'.pktThresh now (s'.get s.lossTimeAndSpace.2) := by
  have he : (step en s (.timeout st now)).1 = ((s.detectLost en s.lossTimeAndSpace.2 now).2.setTimer st now) := by
    show (s.onTimeout en st now).1 = _
    unfold State.onTimeout
    rw [if_pos hl]
  have hc := detectLost_complete en s.lossTimeAndSpace.2 now (h _) ho
  dsimp only
  rw [he, setTimer_get]
  have e1 : delayOf en ((s.detectLost en s.lossTimeAndSpace.2 now).2.setTimer st now) = delayOf en s := by cases s.lossTimeAndSpace.2 <;> rfl
  have e2 : ((s.detectLost en s.lossTimeAndSpace.2 now).2.setTimer st now).pktThresh = s.pktThresh := by cases s.lossTimeAndSpace.2 <;> rfl
  rw [e1, e2]
  exact hc

/-! ### In every history -/

/-- The times at which packets are sent in a space. -/
def times (e : Epoch) : List Op → List Nat
  | [] => []
  | .send e' _ _ now :: os => if e' = e then now :: times e os else times e os
  | _ :: os => times e os

/-- The clock does not go back. -/
def Clock (ops : List Op) : Prop := ∀ e, (times e ops).Pairwise (· ≤ ·)

theorem times_tail {e : Epoch} {o : Op} {os : List Op} {t : Nat} (h : t ∈ times e os) : t ∈ times e (o :: os) := by
  unfold times
  split
  · rename_i heq; cases heq
  · rename_i e' p st now os' heq
    cases heq
    split
    · exact List.mem_cons_of_mem _ h
    · exact h
  · rename_i heq; cases heq; exact h

theorem Clock.tail {o : Op} {os : List Op} (h : Clock (o :: os)) : Clock os := by
  intro e
  have := h e
  unfold times at this
  split at this
  · rename_i heq; cases heq
  · rename_i e' p st now os' heq
    cases heq
    split at this
    · exact (List.pairwise_cons.1 this).2
    · exact this
  · rename_i heq; cases heq; exact this

theorem run_ordered (en : Env σ) : ∀ (os : List Op) (s : State σ), WellSent os → AllBefore s os → Clock os →
    (∀ e, Ordered (s.get e)) → (∀ e, ∀ p ∈ (s.get e).sent, ∀ t ∈ times e os, p.timeSent ≤ t) → ∀ e, Ordered ((run en s os).1.get e)
  | [], _, _, _, _, h, _ => h
  | o :: os, s, hw, hb, hc, h, ht => by
    refine run_ordered en os (step en s o).1 hw.tail (step_before en hw hb) hc.tail ?_ ?_
    · intro e
      by_cases ho : ∃ e' p st now, o = .send e' p st now
      · obtain ⟨e', p, st, now, rfl⟩ := ho
        show Ordered ((s.onSent en e' (p.sent now) st now).get e)
        rw [onSent_get]
        split
        · rename_i he
          subst he
          intro a ha b hbb hlt
          have hpm : p ∈ sends e (.send e p st now :: os) := by rw [sends_cons]; simp
          have hnow : now ∈ times e (.send e p st now :: os) := by simp [times]
          rcases List.mem_append.1 ha with ha | ha <;> rcases List.mem_append.1 hbb with hbb | hbb
          · exact h e a ha b hbb hlt
          · rw [List.mem_singleton] at hbb; subst hbb
            exact ht e a ha now hnow
          · rw [List.mem_singleton] at ha; subst ha
            have := hb e b hbb p hpm
            have hlt' : p.pn < b.pn := hlt
            omega
          · rw [List.mem_singleton] at ha hbb; subst ha; subst hbb; exact Nat.le_refl _
        · exact h e
      · have ho' : ∀ e p st now, o ≠ .send e p st now := fun e p st now hh => ho ⟨e, p, st, now, hh⟩
        exact ordered_of_from (step_from en s o ho' e) (h e)
    · intro e a ha t htm
      by_cases ho : ∃ e' p st now, o = .send e' p st now
      · obtain ⟨e', p, st, now, rfl⟩ := ho
        have ha' : a ∈ ((s.onSent en e' (p.sent now) st now).get e).sent := ha
        rw [onSent_get] at ha'
        split at ha'
        · rename_i he
          subst he
          rcases List.mem_append.1 ha' with ha' | ha'
          · exact ht e a ha' t (times_tail htm)
          · rw [List.mem_singleton] at ha'; subst ha'
            have := hc e
            simp only [times, if_true] at this
            exact (List.pairwise_cons.1 this).1 t htm
        · exact ht e a ha' t (times_tail htm)
      · have ho' : ∀ e p st now, o ≠ .send e p st now := fun e p st now hh => ho ⟨e, p, st, now, hh⟩
        obtain ⟨a', ha', he⟩ := List.mem_map.1 (step_from en s o ho' e a ha)
        simp only [Sent.static, Prod.mk.injEq] at he
        have := ht e a' ha' t (times_tail htm)
        omega

/-- After any history, an ACK that acknowledges something new leaves the space complete. -/
theorem complete_after_ack (en : Env σ) (t0 r d : Nat) (c : σ) (ops : List Op) (hw : WellSent ops) (hc : Clock ops) (e : Epoch)
    (ranges : List (Nat × Nat)) (delay : Nat) (st : Status) (now : Nat) (skip : Option Nat) :
    let s := (run en (State.new t0 r d c) ops).1
    let x := step en s (.ack e ranges delay st now skip)
    x.2.acked ≠ [] → x.1.failed = false → Complete (delayOf en x.1) x.1.pktThresh now (x.1.get e) := by
  intro s x hn hf
  exact ack_complete en (run_inv en ops _ hw (new_before t0 r d c ops) (new_inv t0 r d c)) e
    (run_ordered en ops _ hw (new_before t0 r d c ops) hc (by intro e; cases e <;> (intro p hp; cases hp))
      (by intro e; cases e <;> (intro p hp; cases hp)) e) ranges delay st now skip hn hf

/-- Likewise a timeout with a loss time found. -/
theorem complete_after_timeout (en : Env σ) (t0 r d : Nat) (c : σ) (ops : List Op) (hw : WellSent ops) (hc : Clock ops) (st : Status) (now : Nat) :
    let s := (run en (State.new t0 r d c) ops).1
    let x := step en s (.timeout st now)
    s.lossTimeAndSpace.1.isSome = true → Complete (delayOf en x.1) x.1.pktThresh now (x.1.get s.lossTimeAndSpace.2) := by
  intro s x hl
  exact timeout_complete en (run_inv en ops _ hw (new_before t0 r d c ops) (new_inv t0 r d c)) st now hl
    (run_ordered en ops _ hw (new_before t0 r d c ops) hc (by intro e; cases e <;> (intro p hp; cases hp))
      (by intro e; cases e <;> (intro p hp; cases hp)) _)

/-! ### Concrete -/

/-- Six packets, the last acknowledged: 0, 1 and 2 are lost, 3 and 4 are left open and the
loss time is that of packet 3. -/
example :
    let ops := (List.range 6).map (fun n => Op.send .application (data n) ⟨true, true, true⟩ (100000000 + n * 1000000))
    let x := step en98 (run en98 s0 ops).1 (.ack .application [(5, 6)] 0 ⟨true, true, true⟩ 150000000 none)
    (x.2.lost.map Sent.pn, (x.1.application.sent.filter Sent.live).map Sent.pn, x.1.application.lossTime) =
    ([0, 1, 2], [3, 4], some 153625000) := by decide +kernel

end Verif.Props.C88
