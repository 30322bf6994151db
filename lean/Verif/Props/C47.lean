import Verif.Rec.Fate
import Verif.Props.C46

/-!
C47. Each sent packet's fate is decided at most once.

Over all histories and for every congestion controller: no packet number of a packet
number space appears twice among the packets reported acknowledged and those declared
lost taken together, so a packet is acknowledged at most once, lost at most once, and not
both (`once`); what is reported are the frames the packet was sent with (`frames_sent`),
and these are what is queued for the connection to read (`acked_queue`, `lost_queue`).

A packet is declared lost only when a later packet of the space was acknowledged, and it
is at least three packets older or the time threshold has passed (`lost_only_partial`).
There is one exception, which makes the claim false as stated (`lost_unacked_false`): the
packet with number 0 is declared lost by time alone on a change of path, although nothing
was acknowledged, since "nothing acknowledged" is taken for "0 acknowledged"
(recovery.rs:231, 245).
-/

namespace Verif.Props.C47

open Verif.Rec
open Verif.Props.C46 (trivialEnv s0 done data run_inv new_inv new_before)

variable {σ : Type}

/-- The packets of a space reported acknowledged by some calls. -/
def ackedIn (e : Epoch) (tr : List (Op × Out)) : List (Nat × List Nat) :=
  tr.flatMap fun x => if x.2.epoch = e then x.2.acked.map fun a => (a.pn, a.frames) else []

/-- The packets of a space declared lost by some calls. -/
def lostIn (e : Epoch) (tr : List (Op × Out)) : List (Nat × List Nat) :=
  tr.flatMap fun x => if x.2.epoch = e then x.2.lost.map fun p => (p.pn, p.frames) else []

/-- The packets of a space sent by some calls. -/
def sentIn (e : Epoch) (ops : List Op) : List (Nat × List Nat) := (sends e ops).map fun p => (p.pn, p.frames)

/-- What is decided in one space by one call. -/
def ackedBy (e : Epoch) (o : Out) : List (Nat × List Nat) := if o.epoch = e then o.acked.map fun a => (a.pn, a.frames) else []
def lostBy (e : Epoch) (o : Out) : List (Nat × List Nat) := if o.epoch = e then o.lost.map fun p => (p.pn, p.frames) else []

theorem ackedBy_none (e : Epoch) : ackedBy e Out.none = [] := by unfold ackedBy Out.none; split <;> rfl
theorem lostBy_none (e : Epoch) : lostBy e Out.none = [] := by unfold lostBy Out.none; split <;> rfl

theorem decide_of_sent {l m : List Sent} (h : m = l) : Decide l ([] ++ []) m := by subst h; exact Decide.refl _

/-- Every call but a send decides the fates it reports. -/
theorem step_decide (en : Env σ) {s : State σ} {o : Op} (h : StateInv s) (ho : ∀ e p st now, o ≠ .send e p st now) (e : Epoch) :
    Decide (s.get e).sent (ackedBy e (step en s o).2 ++ lostBy e (step en s o).2) ((step en s o).1.get e).sent := by
  cases o with
  | send e' p st now => exact absurd rfl (ho e' p st now)
  | ack e' rs delay st now skip =>
    show Decide (s.get e).sent (ackedBy e (s.onAck en e' rs delay st now skip).2 ++ lostBy e (s.onAck en e' rs delay st now skip).2)
      ((s.onAck en e' rs delay st now skip).1.get e).sent
    have hd := (acked_decide now s.rtt.smoothed skip rs (h e')).1
    rcases onAck_cases en s e' rs delay st now skip with ⟨_, he⟩ | ⟨hnf, hn, he⟩ | ⟨hnf, last, hl, he⟩
    · rw [he]
      by_cases hee : e = e'
      · subst hee
        have hg : ({ s.set e ((s.get e).acked now s.rtt.smoothed skip rs).2.2 with failed := true } : State σ).get e =
            ((s.get e).acked now s.rtt.smoothed skip rs).2.2 := (get_congr rfl rfl rfl e).trans (get_set_same s e _)
        dsimp only
        rw [hg]
        simp only [ackedBy, lostBy, if_true, List.map_nil, List.append_nil]
        exact hd
      · have hg : ({ s.set e' ((s.get e').acked now s.rtt.smoothed skip rs).2.2 with failed := true } : State σ).get e =
            s.get e := (get_congr rfl rfl rfl e).trans (get_set_other s _ hee)
        dsimp only
        rw [hg]
        have hne : e' ≠ e := fun h => hee h.symm
        simpa [ackedBy, lostBy, hne] using Decide.refl (s.get e).sent
    · rw [he, ackedBy_none, lostBy_none, spurious_get]
      by_cases hee : e = e'
      · subst hee
        rw [get_set_same]
        rw [hn] at hd
        exact hd
      · rw [get_set_other _ _ hee]; exact decide_of_sent rfl
    · rw [he]
      obtain ⟨h1, h2, h3⟩ := ackTail_lost en ((s.set e' ((s.get e').acked now s.rtt.smoothed skip rs).2.2).spurious en
        ((s.get e').acked now s.rtt.smoothed skip rs).2.1) e' ((s.get e').acked now s.rtt.smoothed skip rs).2.1 last delay st now
      obtain ⟨t, hg⟩ := ackTail_get en ((s.set e' ((s.get e').acked now s.rtt.smoothed skip rs).2.2).spurious en
        ((s.get e').acked now s.rtt.smoothed skip rs).2.1) e' e ((s.get e').acked now s.rtt.smoothed skip rs).2.1 last delay st now
      rw [hg]
      have hinv := ackedSet_inv h en e' now skip rs ((s.get e').acked now s.rtt.smoothed skip rs).2.1
      by_cases hee : e = e'
      · subst hee
        rw [if_pos rfl]
        dsimp only
        have hl := detectLost_decide en (ackMid_inv en hinv e ((s.get e).acked now s.rtt.smoothed skip rs).2.1 last delay st now) e now
        rw [(ackMid_sent ..).1, spurious_get, get_set_same] at hl
        have := (hd.trans hl).trans (Decide.drain t _)
        rw [List.append_nil] at this
        unfold ackedBy lostBy
        rw [h3, if_pos rfl, if_pos rfl, h1, h2]
        exact this
      · rw [if_neg hee]
        rw [detectLost_get, if_neg hee, (ackMid_sent ..).1, spurious_get, get_set_other _ _ hee]
        unfold ackedBy lostBy
        rw [h3, if_neg (fun h => hee h.symm), if_neg (fun h => hee h.symm)]
        exact decide_of_sent rfl
  | timeout st now =>
    show Decide (s.get e).sent (ackedBy e (s.onTimeout en st now).2 ++ lostBy e (s.onTimeout en st now).2)
      ((s.onTimeout en st now).1.get e).sent
    unfold State.onTimeout
    split
    · dsimp only
      rw [setTimer_get]
      unfold ackedBy lostBy
      dsimp only
      by_cases hee : e = s.lossTimeAndSpace.2
      · rw [if_pos hee.symm, if_pos hee.symm, hee]
        exact detectLost_decide en h _ now
      · rw [if_neg (fun h => hee h.symm), if_neg (fun h => hee h.symm), detectLost_get, if_neg hee]
        exact decide_of_sent rfl
    · dsimp only
      rw [ackedBy_none, lostBy_none]
      exact decide_of_sent (onPto_get s st now e).1
  | discard e' st now =>
    show Decide (s.get e).sent (ackedBy e Out.none ++ lostBy e Out.none) ((s.onDiscard e' st now).get e).sent
    rw [ackedBy_none, lostBy_none, onDiscard_get]
    split
    · exact ⟨(by simp), (by simp), (by intro y hy; cases hy), (by intro y hy; cases hy)⟩
    · exact decide_of_sent rfl
  | pathChange e' now =>
    show Decide (s.get e).sent (ackedBy e (s.onPathChange en e' now).2 ++ lostBy e (s.onPathChange en e' now).2)
      ((s.detectLost en e' now).2.get e).sent
    unfold ackedBy lostBy State.onPathChange
    dsimp only
    by_cases hee : e = e'
    · subst hee
      rw [if_pos rfl, if_pos rfl]
      exact detectLost_decide en h e now
    · rw [if_neg (fun h => hee h.symm), if_neg (fun h => hee h.symm), detectLost_get, if_neg hee]
      exact decide_of_sent rfl
  | pingSent e' =>
    have hq := step_quiet en s _ (Or.inl ⟨e', rfl⟩) e
    rw [hq.2.2.2.2, ackedBy_none, lostBy_none]; exact decide_of_sent hq.1
  | nextAcked e' =>
    have hq := step_quiet en s _ (Or.inr (Or.inl ⟨e', rfl⟩)) e
    rw [hq.2.2.2.2, ackedBy_none, lostBy_none]; exact decide_of_sent hq.1
  | nextLost e' =>
    have hq := step_quiet en s _ (Or.inr (Or.inr (Or.inl ⟨e', rfl⟩))) e
    rw [hq.2.2.2.2, ackedBy_none, lostBy_none]; exact decide_of_sent hq.1
  | ackDelay d =>
    have hq := step_quiet en s _ (Or.inr (Or.inr (Or.inr ⟨d, rfl⟩))) e
    rw [hq.2.2.2.2, ackedBy_none, lostBy_none]; exact decide_of_sent hq.1

/-- What is known of a space, given the packets sent in it so far (`S`), reported
acknowledged (`A`) and declared lost (`B`). -/
structure FInv (S A B : List (Nat × List Nat)) (x : Space) : Prop where
  open' : ∀ y ∈ liveOf x.sent, y ∈ S ∧ y.1 ∉ (A ++ B).map Prod.fst
  nodup : ((A ++ B).map Prod.fst).Nodup
  sent : ∀ y ∈ A ++ B, y ∈ S

theorem perm4 (A a B b : List (Nat × List Nat)) : ((A ++ a) ++ (B ++ b)).Perm ((A ++ B) ++ (a ++ b)) := by
  rw [List.append_assoc, List.append_assoc]
  refine List.Perm.append_left A ?_
  rw [← List.append_assoc, ← List.append_assoc]
  exact List.Perm.append_right b List.perm_append_comm

theorem FInv.decide {S A B a b : List (Nat × List Nat)} {x x' : Space} (h : FInv S A B x) (hd : Decide x.sent (a ++ b) x'.sent) :
    FInv S (A ++ a) (B ++ b) x' := by
  have hp := perm4 A a B b
  refine ⟨?_, ?_, ?_⟩
  · intro y hy
    obtain ⟨h1, h2⟩ := h.open' y (hd.keep y hy)
    refine ⟨h1, ?_⟩
    intro hmem
    rw [(hp.map Prod.fst).mem_iff, List.map_append] at hmem
    rcases List.mem_append.1 hmem with hm | hm
    · exact h2 hm
    · exact hd.gone y hy hm
  · rw [(hp.map Prod.fst).nodup_iff, List.map_append, List.nodup_append]
    refine ⟨h.nodup, hd.nodup, ?_⟩
    intro u hu v hv huv
    subst huv
    obtain ⟨y, hy, he⟩ := List.mem_map.1 hv
    have := (h.open' y (hd.sub y hy)).2
    rw [he] at this
    exact this hu
  · intro y hy
    rw [hp.mem_iff] at hy
    rcases List.mem_append.1 hy with hm | hm
    · exact h.sent y hm
    · exact (h.open' y (hd.sub y hm)).1

theorem step_fate (en : Env σ) {s : State σ} {o : Op} (h : StateInv s) (e : Epoch) {S A B : List (Nat × List Nat)}
    (hF : FInv S A B (s.get e)) (hnew : ∀ y ∈ S, ∀ q ∈ sends e [o], y.1 < q.pn) :
    FInv (S ++ sentIn e [o]) (A ++ ackedBy e (step en s o).2) (B ++ lostBy e (step en s o).2) ((step en s o).1.get e) := by
  by_cases ho : ∃ e' p st now, o = .send e' p st now
  · obtain ⟨e', p, st, now, rfl⟩ := ho
    have h0 : (step en s (.send e' p st now)).2 = Out.none := rfl
    rw [h0, ackedBy_none, lostBy_none, List.append_nil, List.append_nil]
    show FInv _ A B ((s.onSent en e' (p.sent now) st now).get e)
    rw [onSent_get]
    by_cases hee : e = e'
    · subst hee
      rw [if_pos rfl]
      have hs : sends e [.send e p st now] = [p] := by simp [sends]
      refine ⟨?_, hF.nodup, fun y hy => List.mem_append_left _ (hF.sent y hy)⟩
      intro y hy
      obtain ⟨q, hq, hl, he⟩ := mem_liveOf.1 hy
      rcases List.mem_append.1 (show q ∈ (s.get e).sent ++ [p.sent now] from hq) with hq | hq
      · obtain ⟨h1, h2⟩ := hF.open' y (mem_liveOf.2 ⟨q, hq, hl, he⟩)
        exact ⟨List.mem_append_left _ h1, h2⟩
      · rw [List.mem_singleton] at hq
        subst hq
        subst he
        refine ⟨List.mem_append_right _ ?_, ?_⟩
        · unfold sentIn; rw [hs]; exact List.mem_singleton.2 rfl
        · intro hmem
          obtain ⟨z, hz, hze⟩ := List.mem_map.1 hmem
          have := hnew z (hF.sent z hz) p (by rw [hs]; exact List.mem_singleton.2 rfl)
          have hze' : z.1 = p.pn := hze
          omega
    · rw [if_neg hee]
      exact ⟨fun y hy => ⟨List.mem_append_left _ (hF.open' y hy).1, (hF.open' y hy).2⟩, hF.nodup,
        fun y hy => List.mem_append_left _ (hF.sent y hy)⟩
  · have ho' : ∀ e p st now, o ≠ .send e p st now := fun e p st now h => ho ⟨e, p, st, now, h⟩
    have hF' := hF.decide (step_decide en h ho' e)
    exact ⟨fun y hy => ⟨List.mem_append_left _ (hF'.open' y hy).1, (hF'.open' y hy).2⟩, hF'.nodup,
      fun y hy => List.mem_append_left _ (hF'.sent y hy)⟩

theorem sends_append (e : Epoch) : ∀ (a b : List Op), sends e (a ++ b) = sends e a ++ sends e b
  | [], _ => rfl
  | o :: a, b => by
    rw [List.cons_append, sends_cons, sends_cons, sends_append e a b]
    split
    · split <;> rfl
    · rfl

theorem run_fate (en : Env σ) (e : Epoch) : ∀ (os : List Op) (s : State σ) (S A B : List (Nat × List Nat)),
    WellSent os → AllBefore s os → StateInv s → FInv S A B (s.get e) → (∀ y ∈ S, ∀ q ∈ sends e os, y.1 < q.pn) →
    FInv (S ++ sentIn e os) (A ++ ackedIn e (run en s os).2) (B ++ lostIn e (run en s os).2) ((run en s os).1.get e)
  | [], s, S, A, B, _, _, _, hF, _ => by simpa [sentIn, sends, ackedIn, lostIn, run] using hF
  | o :: os, s, S, A, B, hw, hb, h, hF, hlt => by
    have hsplit : ∀ q, q ∈ sends e [o] → q ∈ sends e (o :: os) := by
      intro q hq
      rw [show o :: os = [o] ++ os from rfl, sends_append]
      exact List.mem_append_left _ hq
    have h1 := step_fate en h e hF fun y hy q hq => hlt y hy q (hsplit q hq)
    have h2 := run_fate en e os (step en s o).1 _ _ _ hw.tail (step_before en hw hb) (step_inv en hw hb h) h1 (by
      intro y hy q hq
      rcases List.mem_append.1 hy with hy | hy
      · exact hlt y hy q (sends_tail hq)
      · unfold sentIn at hy
        obtain ⟨p, hp, he⟩ := List.mem_map.1 hy
        subst he
        have := hw.rising e
        rw [show o :: os = [o] ++ os from rfl, sends_append, List.pairwise_append] at this
        exact this.2.2 p hp q hq)
    have e1 : S ++ sentIn e [o] ++ sentIn e os = S ++ sentIn e (o :: os) := by
      unfold sentIn
      rw [show o :: os = [o] ++ os from rfl, sends_append, List.map_append, List.append_assoc]
    have e2 : A ++ ackedBy e (step en s o).2 ++ ackedIn e (run en (step en s o).1 os).2 = A ++ ackedIn e (run en s (o :: os)).2 := by
      rw [List.append_assoc]; rfl
    have e3 : B ++ lostBy e (step en s o).2 ++ lostIn e (run en (step en s o).1 os).2 = B ++ lostIn e (run en s (o :: os)).2 := by
      rw [List.append_assoc]; rfl
    rw [e1, e2, e3] at h2
    exact h2

theorem fate (en : Env σ) (t0 r d : Nat) (c : σ) (ops : List Op) (hw : WellSent ops) (e : Epoch) :
    FInv (sentIn e ops) (ackedIn e (run en (State.new t0 r d c) ops).2) (lostIn e (run en (State.new t0 r d c) ops).2)
      ((run en (State.new t0 r d c) ops).1.get e) := by
  have h0 : FInv [] [] [] ((State.new t0 r d c).get e) := by
    refine ⟨?_, by simp, by simp⟩
    intro y hy
    cases e <;> cases hy
  have := run_fate en e ops (State.new t0 r d c) [] [] [] hw (new_before t0 r d c ops) (new_inv t0 r d c) h0 (by simp)
  simpa using this

/-- Each packet is acknowledged at most once, declared lost at most once, and not both. -/
theorem once (en : Env σ) (t0 r d : Nat) (c : σ) (ops : List Op) (hw : WellSent ops) (e : Epoch) :
    ((ackedIn e (run en (State.new t0 r d c) ops).2 ++ lostIn e (run en (State.new t0 r d c) ops).2).map Prod.fst).Nodup :=
  (fate en t0 r d c ops hw e).nodup

/-- What is reported are packets that were sent, with the frames they were sent with. -/
theorem frames_sent (en : Env σ) (t0 r d : Nat) (c : σ) (ops : List Op) (hw : WellSent ops) (e : Epoch) :
    ∀ y ∈ ackedIn e (run en (State.new t0 r d c) ops).2 ++ lostIn e (run en (State.new t0 r d c) ops).2, y ∈ sentIn e ops :=
  (fate en t0 r d c ops hw e).sent

/-! ### The queues the connection reads -/

/-- The frames of packets. -/
def framesOf (l : List (Nat × List Nat)) : List Nat := l.flatMap Prod.snd

theorem framesOf_acked (l : List Acked) : framesOf (l.map fun a => (a.pn, a.frames)) = l.flatMap Acked.frames := by
  unfold framesOf; rw [List.flatMap_map]
theorem framesOf_lost (l : List Sent) : framesOf (l.map fun a => (a.pn, a.frames)) = l.flatMap Sent.frames := by
  unfold framesOf; rw [List.flatMap_map]

/-- The queues after an ACK. -/
theorem onAck_queues (en : Env σ) {s : State σ} (h : StateInv s) (e e' : Epoch) (rs : List (Nat × Nat)) (delay : Nat) (st : Status)
    (now : Nat) (skip : Option Nat) :
    ((s.onAck en e' rs delay st now skip).1.get e).ackedFrames =
      (s.get e).ackedFrames ++ framesOf (ackedBy e (s.onAck en e' rs delay st now skip).2) ∧
    ((s.onAck en e' rs delay st now skip).1.get e).lostAck =
      (s.get e).lostAck ++ framesOf (lostBy e (s.onAck en e' rs delay st now skip).2) := by
  obtain ⟨_, ha, hl, _⟩ := acked_decide now s.rtt.smoothed skip rs (h e')
  rcases onAck_cases en s e' rs delay st now skip with ⟨_, he⟩ | ⟨hnf, hn, he⟩ | ⟨hnf, last, hlast, he⟩
  · rw [he]
    have hg : ({ s.set e' ((s.get e').acked now s.rtt.smoothed skip rs).2.2 with failed := true } : State σ).get e =
        (s.set e' ((s.get e').acked now s.rtt.smoothed skip rs).2.2).get e := get_congr rfl rfl rfl e
    dsimp only
    rw [hg, get_set]
    unfold ackedBy lostBy
    dsimp only
    by_cases hee : e = e'
    · subst hee
      rw [if_pos rfl, if_pos rfl, if_pos rfl, framesOf_acked]
      exact ⟨ha, by rw [hl]; simp [framesOf]⟩
    · have hne : e' ≠ e := fun h => hee h.symm
      simp [hee, hne, framesOf]
  · rw [he, ackedBy_none, lostBy_none, spurious_get, get_set]
    split
    · rename_i hee; subst hee
      rw [hn] at ha
      exact ⟨ha, by rw [hl]; simp [framesOf]⟩
    · simp [framesOf]
  · rw [he]
    obtain ⟨h1, h2, h3⟩ := ackTail_lost en ((s.set e' ((s.get e').acked now s.rtt.smoothed skip rs).2.2).spurious en
      ((s.get e').acked now s.rtt.smoothed skip rs).2.1) e' ((s.get e').acked now s.rtt.smoothed skip rs).2.1 last delay st now
    obtain ⟨t, hg⟩ := ackTail_get en ((s.set e' ((s.get e').acked now s.rtt.smoothed skip rs).2.2).spurious en
      ((s.get e').acked now s.rtt.smoothed skip rs).2.1) e' e ((s.get e').acked now s.rtt.smoothed skip rs).2.1 last delay st now
    rw [hg]
    have hinv := ackedSet_inv h en e' now skip rs ((s.get e').acked now s.rtt.smoothed skip rs).2.1
    have hmidq : ∀ (u : State σ) (ee : Epoch) (a : AckAcc), ((ackMid en u ee a last delay st now).get ee).ackedFrames = (u.get ee).ackedFrames ∧
        ((ackMid en u ee a last delay st now).get ee).lostAck = (u.get ee).lostAck := by
      intro u ee a; cases ee <;> exact ⟨rfl, rfl⟩
    unfold ackedBy lostBy
    by_cases hee : e = e'
    · subst hee
      rw [if_pos rfl, h3, if_pos rfl, if_pos rfl, framesOf_acked, framesOf_lost, h1, h2]
      dsimp only
      obtain ⟨q1, q2, _⟩ := detectLost_queues en (ackMid_inv en hinv e ((s.get e).acked now s.rtt.smoothed skip rs).2.1 last delay st now) e now
      rw [q1, q2, (hmidq _ e _).1, (hmidq _ e _).2, spurious_get, get_set_same, ha, hl]
      exact ⟨rfl, rfl⟩
    · have hne : e' ≠ e := fun h => hee h.symm
      rw [if_neg hee, h3, if_neg hne, if_neg hne, detectLost_get, if_neg hee]
      have : ∀ (u : State σ) (a : AckAcc), (ackMid en u e' a last delay st now).get e = u.get e := by
        intro u a
        exact (get_congr rfl rfl rfl e).trans (get_set_other u _ hee)
      rw [this, spurious_get, get_set_other _ _ hee]
      simp [framesOf]

theorem detectLost_queues_any (en : Env σ) {s : State σ} (h : StateInv s) (e e' : Epoch) (now : Nat) :
    ((s.detectLost en e' now).2.get e).lostAck =
      (s.get e).lostAck ++ (if e' = e then (s.detectLost en e' now).1.lost.flatMap Sent.frames else []) ∧
    ((s.detectLost en e' now).2.get e).ackedFrames = (s.get e).ackedFrames := by
  by_cases hee : e = e'
  · subst hee
    rw [if_pos rfl]
    exact ⟨(detectLost_queues en h e now).1, (detectLost_queues en h e now).2.1⟩
  · rw [if_neg (fun h => hee h.symm), detectLost_get, if_neg hee, List.append_nil]
    exact ⟨rfl, rfl⟩

/-- The queue of frames lost that the connection reads grows by the frames of the packets
declared lost; it shrinks only by reading and by discarding the space. -/
theorem lost_queue (en : Env σ) {s : State σ} {o : Op} (h : StateInv s) (e : Epoch) (hr : o ≠ .nextLost e)
    (hd : ∀ st now, o ≠ .discard e st now) :
    ((step en s o).1.get e).lostAck = (s.get e).lostAck ++ framesOf (lostBy e (step en s o).2) := by
  have hnil : ∀ x : List Nat, x ++ framesOf (lostBy e Out.none) = x := by intro x; rw [lostBy_none]; simp [framesOf]
  cases o with
  | send e' p st now =>
    show ((s.onSent en e' (p.sent now) st now).get e).lostAck = _ ++ framesOf (lostBy e Out.none)
    rw [hnil, onSent_get]
    split
    · rename_i hee; subst hee; rfl
    · rfl
  | ack e' rs delay st now skip => exact (onAck_queues en h e e' rs delay st now skip).2
  | timeout st now =>
    show ((s.onTimeout en st now).1.get e).lostAck = _ ++ framesOf (lostBy e (s.onTimeout en st now).2)
    unfold State.onTimeout
    split
    · dsimp only
      rw [setTimer_get, (detectLost_queues_any en h e _ now).1]
      unfold lostBy
      dsimp only
      split
      · rw [framesOf_lost]
      · rfl
    · dsimp only
      rw [hnil]
      unfold State.onPto
      dsimp only
      rw [setTimer_get, get_set]
      split
      · rename_i hee; subst hee; rfl
      · rfl
  | discard e' st now =>
    show ((s.onDiscard e' st now).get e).lostAck = _ ++ framesOf (lostBy e Out.none)
    have hne : e ≠ e' := fun hh => hd st now (by rw [hh])
    rw [hnil, onDiscard_get, if_neg hne]
  | pathChange e' now =>
    show ((s.detectLost en e' now).2.get e).lostAck = _ ++ framesOf (lostBy e (s.onPathChange en e' now).2)
    rw [(detectLost_queues_any en h e _ now).1]
    unfold lostBy State.onPathChange
    dsimp only
    split
    · rw [framesOf_lost]
    · rfl
  | pingSent e' =>
    show ((s.pingSent e').get e).lostAck = _ ++ framesOf (lostBy e Out.none)
    rw [hnil]
    cases e <;> cases e' <;> rfl
  | nextAcked e' =>
    show ((s.nextAcked e').get e).lostAck = _ ++ framesOf (lostBy e Out.none)
    rw [hnil]
    cases e <;> cases e' <;> rfl
  | nextLost e' =>
    show ((s.set e' (s.get e').nextLost).get e).lostAck = _ ++ framesOf (lostBy e Out.none)
    have hne : e ≠ e' := fun hh => hr (by rw [hh])
    rw [hnil, get_set_other _ _ hne]
  | ackDelay d' =>
    show _ = _ ++ framesOf (lostBy e Out.none)
    rw [hnil]
    cases e <;> rfl

/-- The queue of frames acknowledged grows by the frames of the packets reported
acknowledged; it shrinks only by reading and by discarding the space. -/
theorem acked_queue (en : Env σ) {s : State σ} {o : Op} (h : StateInv s) (e : Epoch) (hr : o ≠ .nextAcked e)
    (hd : ∀ st now, o ≠ .discard e st now) :
    ((step en s o).1.get e).ackedFrames = (s.get e).ackedFrames ++ framesOf (ackedBy e (step en s o).2) := by
  have hnil : ∀ x : List Nat, x ++ framesOf (ackedBy e Out.none) = x := by intro x; rw [ackedBy_none]; simp [framesOf]
  cases o with
  | send e' p st now =>
    show ((s.onSent en e' (p.sent now) st now).get e).ackedFrames = _ ++ framesOf (ackedBy e Out.none)
    rw [hnil, onSent_get]
    split
    · rename_i hee; subst hee; rfl
    · rfl
  | ack e' rs delay st now skip => exact (onAck_queues en h e e' rs delay st now skip).1
  | timeout st now =>
    show ((s.onTimeout en st now).1.get e).ackedFrames = _ ++ framesOf (ackedBy e (s.onTimeout en st now).2)
    unfold State.onTimeout
    split
    · dsimp only
      rw [setTimer_get, (detectLost_queues_any en h e _ now).2]
      unfold ackedBy
      dsimp only
      split <;> simp [framesOf]
    · dsimp only
      rw [hnil]
      unfold State.onPto
      dsimp only
      rw [setTimer_get, get_set]
      split
      · rename_i hee; subst hee; rfl
      · rfl
  | discard e' st now =>
    show ((s.onDiscard e' st now).get e).ackedFrames = _ ++ framesOf (ackedBy e Out.none)
    have hne : e ≠ e' := fun hh => hd st now (by rw [hh])
    rw [hnil, onDiscard_get, if_neg hne]
  | pathChange e' now =>
    show ((s.detectLost en e' now).2.get e).ackedFrames = _ ++ framesOf (ackedBy e (s.onPathChange en e' now).2)
    rw [(detectLost_queues_any en h e _ now).2]
    unfold ackedBy State.onPathChange
    dsimp only
    split <;> simp [framesOf]
  | pingSent e' =>
    show ((s.pingSent e').get e).ackedFrames = _ ++ framesOf (ackedBy e Out.none)
    rw [hnil]
    cases e <;> cases e' <;> rfl
  | nextAcked e' =>
    show ((s.nextAcked e').get e).ackedFrames = _ ++ framesOf (ackedBy e Out.none)
    have hne : e ≠ e' := fun hh => hr (by rw [hh])
    rw [hnil]
    unfold State.nextAcked
    rw [get_set_other _ _ hne]
  | nextLost e' =>
    show ((s.set e' (s.get e').nextLost).get e).ackedFrames = _ ++ framesOf (ackedBy e Out.none)
    rw [hnil, get_set]
    split
    · rename_i hee; subst hee
      unfold Space.nextLost
      split <;> rfl
    · rfl
  | ackDelay d' =>
    show _ = _ ++ framesOf (ackedBy e Out.none)
    rw [hnil]
    cases e <;> rfl

/-! ### When packets are declared lost -/

/-- The time of a call. -/
def nowOf : Op → Nat
  | .send _ _ _ now => now
  | .ack _ _ _ _ now _ => now
  | .timeout _ now => now
  | .discard _ _ now => now
  | .pathChange _ now => now
  | _ => 0

theorem detectLost_same (en : Env σ) (s : State σ) (e : Epoch) (now : Nat) : (s.detectLost en e now).2.pktThresh = s.pktThresh ∧
    (s.detectLost en e now).2.lossDelay en = s.lossDelay en := by cases e <;> exact ⟨rfl, rfl⟩

theorem ackTail_same (en : Env σ) (s : State σ) (e : Epoch) (a : AckAcc) (last : Acked) (delay : Nat) (st : Status) (now : Nat) :
    (s.ackTail en e a last delay st now).1.pktThresh = s.pktThresh ∧
    (s.ackTail en e a last delay st now).1.lossDelay en = (ackMid en s e a last delay st now).lossDelay en := by
  cases e <;> exact ⟨rfl, rfl⟩

theorem ackTail_largest (en : Env σ) {s : State σ} (h : StateInv s) (e e' : Epoch) (a : AckAcc) (last : Acked) (delay : Nat) (st : Status)
    (now : Nat) : ((s.ackTail en e a last delay st now).1.get e').largestAcked =
      if e' = e then some (Nat.max ((s.get e).largestAcked.getD 0) last.pn) else (s.get e').largestAcked := by
  obtain ⟨t, hg⟩ := ackTail_get en s e e' a last delay st now
  rw [hg]
  have hm := ackMid_inv en h e a last delay st now
  by_cases hee : e' = e
  · subst hee
    rw [if_pos rfl, if_pos rfl]
    dsimp only
    rw [(detectLost_queues en hm e' now).2.2]
    cases e' <;> rfl
  · rw [if_neg hee, if_neg hee, detectLost_get, if_neg hee]
    cases e <;> cases e' <;> first | rfl | exact absurd rfl hee

theorem getLast_mem {l : List Acked} {x : Acked} (h : l.getLast? = some x) : x ∈ l := List.mem_of_getLast? h

/-- The largest acknowledged packet number was acknowledged. -/
theorem step_largest (en : Env σ) {s : State σ} {o : Op} (h : StateInv s) (e : Epoch) {g : Nat}
    (hg : ((step en s o).1.get e).largestAcked = some g) :
    (s.get e).largestAcked = some g ∨ g ∈ (ackedBy e (step en s o).2).map Prod.fst := by
  cases o with
  | send e' p st now =>
    have hg' : ((s.onSent en e' (p.sent now) st now).get e).largestAcked = some g := hg
    rw [onSent_get] at hg'
    split at hg'
    · rename_i hee; subst hee; exact Or.inl hg'
    · exact Or.inl hg'
  | ack e' rs delay st now skip =>
    have hg' : ((s.onAck en e' rs delay st now skip).1.get e).largestAcked = some g := hg
    show _ ∨ g ∈ (ackedBy e (s.onAck en e' rs delay st now skip).2).map Prod.fst
    obtain ⟨_, _, _, hla, _⟩ := acked_decide now s.rtt.smoothed skip rs (h e')
    have hset : ∀ g, ((s.set e' ((s.get e').acked now s.rtt.smoothed skip rs).2.2).get e).largestAcked = some g →
        (s.get e).largestAcked = some g := by
      intro g h
      rw [get_set] at h
      split at h
      · rename_i hee; subst hee; rw [hla] at h; exact h
      · exact h
    rcases onAck_cases en s e' rs delay st now skip with ⟨_, he⟩ | ⟨hnf, hn, he⟩ | ⟨hnf, last, hlast, he⟩
    · rw [he] at hg'
      exact Or.inl (hset g hg')
    · rw [he] at hg'
      rw [spurious_get] at hg'
      exact Or.inl (hset g hg')
    · rw [he] at hg' ⊢
      rw [ackTail_largest en (ackedSet_inv h en e' now skip rs _)] at hg'
      obtain ⟨h1, h2, h3⟩ := ackTail_lost en ((s.set e' ((s.get e').acked now s.rtt.smoothed skip rs).2.2).spurious en
        ((s.get e').acked now s.rtt.smoothed skip rs).2.1) e' ((s.get e').acked now s.rtt.smoothed skip rs).2.1 last delay st now
      split at hg'
      · rename_i hee; subst hee
        rw [spurious_get, get_set_same, hla] at hg'
        have hin : last.pn ∈ (ackedBy e ((((s.set e ((s.get e).acked now s.rtt.smoothed skip rs).2.2).spurious en
            ((s.get e).acked now s.rtt.smoothed skip rs).2.1).ackTail en e ((s.get e).acked now s.rtt.smoothed skip rs).2.1 last delay st
            now).2)).map Prod.fst := by
          unfold ackedBy
          rw [h3, if_pos rfl, h2, List.map_map]
          exact List.mem_map_of_mem (f := Prod.fst ∘ fun a : Acked => (a.pn, a.frames)) (getLast_mem hlast)
        have hgv := Option.some.inj hg'
        cases hc : (s.get e).largestAcked with
        | none =>
          rw [hc] at hgv
          right
          have : g = last.pn := by rw [← hgv]; exact Nat.max_eq_right (Nat.zero_le _)
          rw [this]; exact hin
        | some u =>
          rw [hc] at hgv
          by_cases hle : last.pn ≤ u
          · left
            have : Nat.max u last.pn = u := Nat.max_eq_left hle
            rw [Option.getD_some, this] at hgv
            rw [hgv]
          · right
            have : Nat.max u last.pn = last.pn := Nat.max_eq_right (by omega)
            rw [Option.getD_some, this] at hgv
            rw [← hgv]; exact hin
      · rename_i hee
        rw [spurious_get] at hg'
        exact Or.inl (hset g hg')
  | timeout st now =>
    left
    have hg' : ((s.onTimeout en st now).1.get e).largestAcked = some g := hg
    unfold State.onTimeout at hg'
    split at hg'
    · dsimp only at hg'
      rw [setTimer_get] at hg'
      by_cases hee : e = s.lossTimeAndSpace.2
      · rw [hee] at hg' ⊢
        rw [(detectLost_queues en h _ now).2.2] at hg'; exact hg'
      · rw [detectLost_get, if_neg hee] at hg'; exact hg'
    · dsimp only at hg'
      unfold State.onPto at hg'
      dsimp only at hg'
      rw [setTimer_get, get_set] at hg'
      split at hg'
      · rename_i hee; subst hee; exact hg'
      · exact hg'
  | discard e' st now =>
    left
    have hg' : ((s.onDiscard e' st now).get e).largestAcked = some g := hg
    rw [onDiscard_get] at hg'
    split at hg'
    · rename_i hee; subst hee; exact hg'
    · exact hg'
  | pathChange e' now =>
    left
    have hg' : ((s.detectLost en e' now).2.get e).largestAcked = some g := hg
    by_cases hee : e = e'
    · subst hee; rw [(detectLost_queues en h _ now).2.2] at hg'; exact hg'
    · rw [detectLost_get, if_neg hee] at hg'; exact hg'
  | pingSent e' => left; cases e <;> cases e' <;> exact hg
  | nextAcked e' => left; cases e <;> cases e' <;> exact hg
  | nextLost e' =>
    left
    have hg' : ((s.set e' (s.get e').nextLost).get e).largestAcked = some g := hg
    rw [get_set] at hg'
    split at hg'
    · rename_i hee; subst hee
      unfold Space.nextLost at hg'
      split at hg' <;> exact hg'
    · exact hg'
  | ackDelay d => left; cases e <;> exact hg

theorem run_largest (en : Env σ) (e : Epoch) : ∀ (os : List Op) (s : State σ) (A : List (Nat × List Nat)),
    WellSent os → AllBefore s os → StateInv s → (∀ g, (s.get e).largestAcked = some g → g ∈ A.map Prod.fst) →
    ∀ g, ((run en s os).1.get e).largestAcked = some g → g ∈ (A ++ ackedIn e (run en s os).2).map Prod.fst
  | [], _, A, _, _, _, hA, g, hg => by
    simp only [ackedIn, run, List.flatMap_nil, List.append_nil]; exact hA g hg
  | o :: os, s, A, hw, hb, h, hA, g, hg => by
    have := run_largest en e os (step en s o).1 (A ++ ackedBy e (step en s o).2) hw.tail (step_before en hw hb) (step_inv en hw hb h) (by
      intro g' hg'
      rw [List.map_append]
      rcases step_largest en h e hg' with h1 | h1
      · exact List.mem_append_left _ (hA g' h1)
      · exact List.mem_append_right _ h1) g hg
    rw [List.append_assoc] at this
    exact this

/-- The packets a call declares lost, in a state in which `A` are the packets reported
acknowledged. -/
theorem step_lost (en : Env σ) {s : State σ} {o : Op} (h : StateInv s) {S A B : List (Nat × List Nat)}
    (hF : FInv S A B (s.get (step en s o).2.epoch))
    (hA : ∀ g, (s.get (step en s o).2.epoch).largestAcked = some g → g ∈ A.map Prod.fst) (p : Sent) (hp : p ∈ (step en s o).2.lost)
    (h0 : p.pn ≠ 0) :
    ∃ q ∈ (A ++ ackedBy (step en s o).2.epoch (step en s o).2).map Prod.fst, p.pn < q ∧
      (p.timeSent ≤ nowOf o - Nat.max ((step en s o).1.lossDelay en) granularity ∨ p.pn + (step en s o).1.pktThresh ≤ q) := by
  -- loss detection in a state `u` whose space has the packets `l` open
  have key : ∀ (u : State σ) (e : Epoch) (now : Nat) (A' B' : List (Nat × List Nat)), FInv S A' B' (u.get e) →
      (∀ g, (u.get e).largestAcked = some g → g ∈ A'.map Prod.fst) → p ∈ (u.detectLost en e now).1.lost →
      ∃ q ∈ A'.map Prod.fst, p.pn < q ∧ (p.timeSent ≤ now - Nat.max (u.lossDelay en) granularity ∨ p.pn + u.pktThresh ≤ q) := by
    intro u e now A' B' hF' hA' hp'
    obtain ⟨h1, h2, h3, h4⟩ := lose_tests (u.lossDelay en) u.pktThresh now (u.get e) p hp'
    have hno := (hF'.open' (p.pn, p.frames) (mem_liveOf.2 ⟨p, h1, h2, rfl⟩)).2
    cases hc : (u.get e).largestAcked with
    | none => rw [hc] at h3; simp at h3; exact absurd h3 h0
    | some g =>
      rw [hc, Option.getD_some] at h3 h4
      have hg := hA' g hc
      refine ⟨g, hg, ?_, ?_⟩
      · have hne : p.pn ≠ g := by
          intro he
          apply hno
          rw [List.map_append]
          exact List.mem_append_left _ (by rw [← he] at hg; exact hg)
        omega
      · rcases h4 with h4 | h4
        · exact Or.inl h4
        · exact Or.inr h4
  cases o with
  | ack e rs delay st now skip =>
    have hp' : p ∈ (s.onAck en e rs delay st now skip).2.lost := hp
    have hst : step en s (.ack e rs delay st now skip) = s.onAck en e rs delay st now skip := rfl
    rw [hst] at hF hA ⊢
    rcases onAck_cases en s e rs delay st now skip with ⟨_, he⟩ | ⟨hnf, hn, he⟩ | ⟨hnf, last, hlast, he⟩
    · rw [he] at hp'; cases hp'
    · rw [he] at hp'; cases hp'
    · obtain ⟨hd, _, _, hla, _⟩ := acked_decide now s.rtt.smoothed skip rs (h e)
      have hinv := ackedSet_inv h en e now skip rs ((s.get e).acked now s.rtt.smoothed skip rs).2.1
      rw [he] at hp' hF hA ⊢
      obtain ⟨h1, h2, h3⟩ := ackTail_lost en ((s.set e ((s.get e).acked now s.rtt.smoothed skip rs).2.2).spurious en
        ((s.get e).acked now s.rtt.smoothed skip rs).2.1) e ((s.get e).acked now s.rtt.smoothed skip rs).2.1 last delay st now
      rw [h3] at hF hA ⊢
      rw [h1] at hp'
      have hab : ackedBy e (((s.set e ((s.get e).acked now s.rtt.smoothed skip rs).2.2).spurious en
          ((s.get e).acked now s.rtt.smoothed skip rs).2.1).ackTail en e ((s.get e).acked now s.rtt.smoothed skip rs).2.1 last delay st
          now).2 = ((s.get e).acked now s.rtt.smoothed skip rs).2.1.newly.map Acked.key := by
        unfold ackedBy; rw [h3, if_pos rfl, h2]; rfl
      rw [hab]
      have hFm : FInv S (A ++ ((s.get e).acked now s.rtt.smoothed skip rs).2.1.newly.map Acked.key) (B ++ [])
          ((ackMid en ((s.set e ((s.get e).acked now s.rtt.smoothed skip rs).2.2).spurious en
            ((s.get e).acked now s.rtt.smoothed skip rs).2.1) e ((s.get e).acked now s.rtt.smoothed skip rs).2.1 last delay st now).get e) := by
        apply hF.decide
        rw [(ackMid_sent ..).1, spurious_get, get_set_same, List.append_nil]
        exact hd
      have hk := key _ e now _ _ hFm (by
        intro g hg
        have hmid : ((ackMid en ((s.set e ((s.get e).acked now s.rtt.smoothed skip rs).2.2).spurious en
            ((s.get e).acked now s.rtt.smoothed skip rs).2.1) e ((s.get e).acked now s.rtt.smoothed skip rs).2.1 last delay st
            now).get e).largestAcked = some (Nat.max ((s.get e).largestAcked.getD 0) last.pn) := by
          have : ∀ (u : State σ) (a : AckAcc), ((ackMid en u e a last delay st now).get e).largestAcked =
              some (Nat.max ((u.get e).largestAcked.getD 0) last.pn) := by intro u a; cases e <;> rfl
          rw [this, spurious_get, get_set_same, hla]
        rw [hmid] at hg
        have hg := Option.some.inj hg
        rw [List.map_append]
        have hlm : last.pn ∈ (((s.get e).acked now s.rtt.smoothed skip rs).2.1.newly.map Acked.key).map Prod.fst := by
          rw [List.map_map]
          exact List.mem_map_of_mem (f := Prod.fst ∘ Acked.key) (getLast_mem hlast)
        cases hc : (s.get e).largestAcked with
        | none =>
          rw [hc] at hg
          have : g = last.pn := by rw [← hg]; exact Nat.max_eq_right (Nat.zero_le _)
          rw [this]; exact List.mem_append_right _ hlm
        | some u =>
          rw [hc, Option.getD_some] at hg
          by_cases hle : last.pn ≤ u
          · have : Nat.max u last.pn = u := Nat.max_eq_left hle
            rw [this] at hg
            rw [← hg]; exact List.mem_append_left _ (hA u hc)
          · have : Nat.max u last.pn = last.pn := Nat.max_eq_right (by omega)
            rw [this] at hg
            rw [← hg]; exact List.mem_append_right _ hlm) hp'
      obtain ⟨q, hq1, hq2, hq3⟩ := hk
      obtain ⟨hs1, hs2⟩ := ackTail_same en ((s.set e ((s.get e).acked now s.rtt.smoothed skip rs).2.2).spurious en
        ((s.get e).acked now s.rtt.smoothed skip rs).2.1) e ((s.get e).acked now s.rtt.smoothed skip rs).2.1 last delay st now
      refine ⟨q, hq1, hq2, ?_⟩
      rw [hs2, hs1]
      have hpt : (ackMid en ((s.set e ((s.get e).acked now s.rtt.smoothed skip rs).2.2).spurious en
            ((s.get e).acked now s.rtt.smoothed skip rs).2.1) e ((s.get e).acked now s.rtt.smoothed skip rs).2.1 last delay st now).pktThresh =
          ((s.set e ((s.get e).acked now s.rtt.smoothed skip rs).2.2).spurious en
            ((s.get e).acked now s.rtt.smoothed skip rs).2.1).pktThresh := by cases e <;> rfl
      rw [hpt] at hq3
      exact hq3
  | timeout st now =>
    have hp' : p ∈ (s.onTimeout en st now).2.lost := hp
    have hst : step en s (.timeout st now) = s.onTimeout en st now := rfl
    rw [hst] at hF hA ⊢
    by_cases hx : s.lossTimeAndSpace.1.isSome = true
    · have hot : s.onTimeout en st now = ((s.detectLost en s.lossTimeAndSpace.2 now).2.setTimer st now,
          ⟨s.lossTimeAndSpace.2, [], (s.detectLost en s.lossTimeAndSpace.2 now).1.lost, (s.detectLost en s.lossTimeAndSpace.2 now).1.packets,
            (s.detectLost en s.lossTimeAndSpace.2 now).1.bytes, 0, 0⟩) := by
        unfold State.onTimeout; rw [if_pos hx]
      rw [hot] at hF hA hp' ⊢
      dsimp only at hF hA hp' ⊢
      obtain ⟨q, hq1, hq2, hq3⟩ := key s s.lossTimeAndSpace.2 now A B hF hA hp'
      refine ⟨q, ?_, hq2, ?_⟩
      · rw [List.map_append]; exact List.mem_append_left _ hq1
      · obtain ⟨hs1, hs2⟩ := detectLost_same en s s.lossTimeAndSpace.2 now
        have hl : ((s.detectLost en s.lossTimeAndSpace.2 now).2.setTimer st now).lossDelay en =
          (s.detectLost en s.lossTimeAndSpace.2 now).2.lossDelay en := rfl
        have ht : ((s.detectLost en s.lossTimeAndSpace.2 now).2.setTimer st now).pktThresh =
          (s.detectLost en s.lossTimeAndSpace.2 now).2.pktThresh := rfl
        rw [hl, ht, hs1, hs2]
        exact hq3
    · have hot : s.onTimeout en st now = (s.onPto st now, Out.none) := by
        unfold State.onTimeout; rw [if_neg hx]
      rw [hot] at hp'; cases hp'
  | pathChange e now =>
    have hp' : p ∈ (s.detectLost en e now).1.lost := hp
    obtain ⟨q, hq1, hq2, hq3⟩ := key s e now A B hF hA hp'
    refine ⟨q, ?_, hq2, ?_⟩
    · rw [List.map_append]; exact List.mem_append_left _ hq1
    · obtain ⟨hs1, hs2⟩ := detectLost_same en s e now
      show _ ∨ p.pn + (s.detectLost en e now).2.pktThresh ≤ q
      have : (step en s (.pathChange e now)).1.lossDelay en = (s.detectLost en e now).2.lossDelay en := rfl
      rw [this, hs1, hs2]
      exact hq3
  | send e p' st now => cases hp
  | discard e st now => cases hp
  | pingSent e => cases hp
  | nextAcked e => cases hp
  | nextLost e => cases hp
  | ackDelay d => cases hp

/-- The reordering threshold stays between 3 and 20. -/
theorem step_thresh (en : Env σ) {s : State σ} (o : Op) (h : 3 ≤ s.pktThresh ∧ s.pktThresh ≤ 20) :
    s.pktThresh ≤ (step en s o).1.pktThresh ∧ (step en s o).1.pktThresh ≤ 20 := by
  have hsp : ∀ (u : State σ) (a : AckAcc), u.pktThresh = s.pktThresh →
      s.pktThresh ≤ (u.spurious en a).pktThresh ∧ (u.spurious en a).pktThresh ≤ 20 := by
    intro u a hu
    unfold State.spurious
    cases hc : a.thresh with
    | none => simp only [hu]; exact ⟨Nat.le_refl _, h.2⟩
    | some t =>
      simp only [hu, maxPacketThreshold]
      have h1 : Nat.min t 20 ≤ 20 := Nat.min_le_right _ _
      exact ⟨Nat.le_max_left _ _, Nat.max_le.2 ⟨h.2, h1⟩⟩
  cases o with
  | send e p st now =>
    have : (step en s (.send e p st now)).1.pktThresh = s.pktThresh := by
      show (s.onSent en e (p.sent now) st now).pktThresh = _
      unfold State.onSent State.sentInFlight
      dsimp only
      split <;> cases e <;> rfl
    rw [this]; exact ⟨Nat.le_refl _, h.2⟩
  | ack e rs delay st now skip =>
    show s.pktThresh ≤ (s.onAck en e rs delay st now skip).1.pktThresh ∧ (s.onAck en e rs delay st now skip).1.pktThresh ≤ 20
    rcases onAck_cases en s e rs delay st now skip with ⟨_, he⟩ | ⟨hnf, hn, he⟩ | ⟨hnf, last, hlast, he⟩
    · rw [he]
      have : ({ s.set e ((s.get e).acked now s.rtt.smoothed skip rs).2.2 with failed := true } : State σ).pktThresh = s.pktThresh :=
        set_pktThresh ..
      dsimp only at this ⊢
      rw [this]; exact ⟨Nat.le_refl _, h.2⟩
    · rw [he]; exact hsp _ _ (set_pktThresh ..)
    · rw [he, (ackTail_same ..).1]; exact hsp _ _ (set_pktThresh ..)
  | timeout st now =>
    have : (step en s (.timeout st now)).1.pktThresh = s.pktThresh := by
      show (s.onTimeout en st now).1.pktThresh = _
      unfold State.onTimeout
      split
      · exact (detectLost_same en s _ now).1
      · exact set_pktThresh ..
    rw [this]; exact ⟨Nat.le_refl _, h.2⟩
  | discard e st now =>
    have : (step en s (.discard e st now)).1.pktThresh = s.pktThresh := by cases e <;> rfl
    rw [this]; exact ⟨Nat.le_refl _, h.2⟩
  | pathChange e now =>
    have : (step en s (.pathChange e now)).1.pktThresh = s.pktThresh := (detectLost_same en s e now).1
    rw [this]; exact ⟨Nat.le_refl _, h.2⟩
  | pingSent e => cases e <;> exact ⟨Nat.le_refl _, h.2⟩
  | nextAcked e => cases e <;> exact ⟨Nat.le_refl _, h.2⟩
  | nextLost e => cases e <;> exact ⟨Nat.le_refl _, h.2⟩
  | ackDelay d => exact ⟨Nat.le_refl _, h.2⟩

theorem run_thresh (en : Env σ) : ∀ (os : List Op) (s : State σ), 3 ≤ s.pktThresh ∧ s.pktThresh ≤ 20 →
    3 ≤ (run en s os).1.pktThresh ∧ (run en s os).1.pktThresh ≤ 20
  | [], _, h => h
  | o :: os, s, h => run_thresh en os (step en s o).1 ⟨Nat.le_trans h.1 (step_thresh en o h).1, (step_thresh en o h).2⟩

theorem thresh_bounds (en : Env σ) (t0 r d : Nat) (c : σ) (ops : List Op) :
    3 ≤ (run en (State.new t0 r d c) ops).1.pktThresh ∧ (run en (State.new t0 r d c) ops).1.pktThresh ≤ 20 :=
  run_thresh en ops _ ⟨Nat.le_refl _, (show 3 ≤ 20 by decide)⟩

theorem wellSent_prefix {pre : List Op} {o : Op} (h : WellSent (pre ++ [o])) : WellSent pre :=
  ⟨fun e => by have := h.rising e; rw [sends_append, List.pairwise_append] at this; exact this.1,
   fun e p hp => h.probes e p (by rw [sends_append]; exact List.mem_append_left _ hp)⟩

/-- After any history `pre`, a call declares a packet other than number 0 lost only if a
later packet `q` of the same space has been reported acknowledged, and the packet was sent
at least the loss delay ago, or `q` is later by the packet threshold, which is at least 3.
Missing: packet number 0. -/
theorem lost_only_partial (en : Env σ) (t0 r d : Nat) (c : σ) (pre : List Op) (o : Op) (hw : WellSent (pre ++ [o])) (p : Sent)
    (hp : p ∈ (step en (run en (State.new t0 r d c) pre).1 o).2.lost) (h0 : p.pn ≠ 0) :
    let s := (run en (State.new t0 r d c) pre).1
    let x := step en s o
    ∃ q ∈ (ackedIn x.2.epoch ((run en (State.new t0 r d c) pre).2 ++ [(o, x.2)])).map Prod.fst, p.pn < q ∧
      (p.timeSent ≤ nowOf o - Nat.max (x.1.lossDelay en) granularity ∨ p.pn + 3 ≤ q) := by
  intro s x
  have hwp := wellSent_prefix hw
  have hinv : StateInv s := run_inv en pre _ hwp (new_before t0 r d c pre) (new_inv t0 r d c)
  have hF := fate en t0 r d c pre hwp x.2.epoch
  have hA := run_largest en x.2.epoch pre (State.new t0 r d c) [] hwp (new_before t0 r d c pre) (new_inv t0 r d c)
    (by intro g hg; cases hx : x.2.epoch <;> rw [hx] at hg <;> cases hg)
  rw [List.nil_append] at hA
  obtain ⟨q, h1, h2, h3⟩ := step_lost en hinv hF hA p hp h0
  refine ⟨q, ?_, h2, ?_⟩
  · have : ackedIn x.2.epoch ((run en (State.new t0 r d c) pre).2 ++ [(o, x.2)]) =
        ackedIn x.2.epoch (run en (State.new t0 r d c) pre).2 ++ ackedBy x.2.epoch x.2 := by
      unfold ackedIn
      rw [List.flatMap_append]
      simp [ackedBy]
    rw [this]; exact h1
  · have ht := thresh_bounds en t0 r d c pre
    have ht2 := step_thresh en o ht
    have h33 : p.timeSent ≤ nowOf o - Nat.max (x.1.lossDelay en) granularity ∨ p.pn + x.1.pktThresh ≤ q := h3
    rcases h33 with h3 | h3
    · exact Or.inl h3
    · right
      have h5 : s.pktThresh ≤ x.1.pktThresh := ht2.1
      have h6 : 3 ≤ s.pktThresh := ht.1
      omega

/-- Packet 0 is declared lost although nothing was acknowledged. -/
theorem lost_unacked_false : ∃ (pre : List Op) (o : Op) (p : Sent), WellSent (pre ++ [o]) ∧
    p ∈ (step trivialEnv (run trivialEnv s0 pre).1 o).2.lost ∧
    ∀ e, ackedIn e ((run trivialEnv s0 pre).2 ++ [(o, (step trivialEnv (run trivialEnv s0 pre).1 o).2)]) = [] := by
  refine ⟨[.send .initial (data 0) done 1000000000], .pathChange .initial 2000000000,
    { (data 0).sent 1000000000 with frames := [0] }, ⟨?_, ?_⟩, by decide +kernel, ?_⟩
  · intro e; cases e <;> simp [sends]
  · intro e p hp; cases e <;> simp [sends] at hp <;> subst hp <;> decide
  · intro e; cases e <;> decide +kernel

/-- Six packets, of which the last is acknowledged: three are lost by the packet
threshold, and the others when the time threshold has passed. An ACK of lost packets
raises the packet threshold and reports nothing. -/
example :
    let en := { trivialEnv with scale := fun b d => if b = true then d * 5 / 4 else d * 9 / 8 }
    let ops := (List.range 6).map (fun n => Op.send .application (data n) done (1000000000 + 1000000 * n)) ++
      [.ack .application [(5, 6)] 0 done 1025000000 none, .timeout done 1027000000, .ack .application [(0, 6)] 0 done 1028000000 none]
    (((run en s0 ops).2.drop 6).map fun x => (x.2.acked.map Acked.pn, x.2.lost.map Sent.pn), (run en s0 ops).1.spuriousCount,
      (run en s0 ops).1.pktThresh) =
    ([([5], [0, 1, 2]), ([], [3, 4]), ([], [])], 5, 6) := by decide +kernel

end Verif.Props.C47
