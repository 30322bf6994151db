import Verif.Props.C130

/-!
C131. With BBR, the fate of each packet is decided once, and its frames are reported once.

Over all histories and for every congestion controller: the packets sent in a packet
number space are, each once, the packets still open, those reported acknowledged, those
reported lost and those forgotten with the space (`partition`, `once`). An ACK
acknowledges exactly the open packets in its ranges (`acked_exactly`). The frames handed
out as acknowledged are those of the acknowledged packets in order, each once, and the
same holds for lost frames, unless the space is discarded (`acked_frames`, `lost_frames`);
the frames repeated by probes are frames of sent packets and never DATAGRAM frames
(`probe_frames`). A packet is counted as spuriously lost at most once, and only if it was
declared lost before (`spurious_once`, `spurious_lost`).

That every ACK of a packet declared lost is recognised is false (`spurious_false`): the
packets at the front of the list whose fate is decided are forgotten by the next ACK.
-/

namespace Verif.Props.C131

open Verif.GRec
open Verif.Rec (Epoch Status Rtt)
open Verif.Props.C130 (quietEnv s0 done data)

variable {σ : Type}

/-! ### The specification -/

/-- The frame handed out, if from this queue. -/
def pick (q : Src) : Option (Src × Fr) → List Fr
  | some x => if x.1 = q then [x.2] else []
  | none => []

/-- The frames handed out from a queue of a space by one call. -/
def handedBy (q : Src) (e : Epoch) (o : Out) : List Fr := if o.epoch = e then pick q o.handed else []

/-- The frames handed out from a queue of a space. -/
def handedIn (q : Src) (e : Epoch) (tr : List (Op × Out)) : List Fr := tr.flatMap fun x => handedBy q e x.2

/-- The packets of a space counted as spuriously lost. -/
def spuriousIn (e : Epoch) (tr : List (Op × Out)) : List Nat := tr.flatMap fun x => x.2.at e x.2.spurious

/-- The space is not discarded. -/
def Kept (e : Epoch) (os : List Op) : Prop := ∀ st now, Op.discard e st now ∉ os

/-! ### One call -/

theorem handedBy_none (q : Src) (e : Epoch) {o : Out} (h : o.handed = none) : handedBy q e o = [] := by
  unfold handedBy; rw [h]; split <;> rfl

theorem nextAcked_pick (x : Space) : pick .acked x.nextAcked.2 ++ x.nextAcked.1.ackedFrames = x.ackedFrames ∧
    pick .lost x.nextAcked.2 = [] ∧ pick .pto x.nextAcked.2 = [] := by
  unfold Space.nextAcked
  split
  · next h => exact ⟨rfl, rfl, rfl⟩
  · next h => rw [h]; exact ⟨rfl, rfl, rfl⟩

theorem nextLost_pick (x : Space) : pick .acked x.nextLost.2 = [] ∧ pick .lost x.nextLost.2 ++ x.nextLost.1.lostAck = x.lostAck ∧
    pick .pto x.nextLost.2 ++ x.nextLost.1.lostPto = x.lostPto := by
  unfold Space.nextLost
  split
  · next h => rw [h]; exact ⟨rfl, rfl, rfl⟩
  · next h1 h2 => rw [h2, h1]; exact ⟨rfl, rfl, rfl⟩
  · exact ⟨rfl, rfl, rfl⟩

/-- What a probe timeout repeats. -/
def Repeats (x : Space) (fs : List Fr) : Prop := ∀ f ∈ fs, f.isDgram = false ∧ f ∈ framesOf x.live

theorem probed_frames (n : Nat) (l : List Pk) : ∀ f ∈ (probed n l).flatten, f ∈ framesOf (openOf l) := by
  intro f hf
  obtain ⟨fs, hfs, hm⟩ := List.mem_flatten.1 hf
  have := List.mem_of_mem_take hfs
  obtain ⟨p, hp, he⟩ := List.mem_filterMap.1 this
  obtain ⟨pn, st⟩ := p
  cases st with
  | sent i =>
    simp only at he
    split at he
    · cases he
      exact List.mem_flatMap.2 ⟨(pn, i), mem_openOf hp, hm⟩
    · exact nomatch he
  | acked => exact nomatch he
  | lost => exact nomatch he

theorem onProbe_queues (n : Nat) (x : Space) : (x.onProbe n).ackedFrames = x.ackedFrames ∧ (x.onProbe n).lostAck = x.lostAck ∧
    (x.onProbe n).sent = x.sent ∧ ∃ fs, (x.onProbe n).lostPto = x.lostPto ++ fs ∧ Repeats x fs := by
  refine ⟨rfl, rfl, rfl, _, rfl, ?_⟩
  intro f hf
  split at hf
  · obtain ⟨h1, h2⟩ := List.mem_filter.1 hf
    exact ⟨by simpa using h2, probed_frames _ _ f h1⟩
  · exact nomatch hf

/-- What a call does to the queues of a space. -/
structure Queues (x y : Space) (e : Epoch) (o : Out) : Prop where
  acked : handedBy .acked e o ++ y.ackedFrames = x.ackedFrames ++ framesOf (o.at e o.acked)
  lost : handedBy .lost e o ++ y.lostAck = x.lostAck ++ framesOf (o.at e o.lost)
  pto : ∃ fs, handedBy .pto e o ++ y.lostPto = x.lostPto ++ fs ∧ Repeats x fs

/-- What a call does to the packets declared lost that are still known. -/
structure Losses (x y : Space) (e : Epoch) (o : Out) : Prop where
  known : ∀ n ∈ o.at e o.spurious, n ∈ lostOf x.sent
  count : ∀ n, (lostOf y.sent).count n + (o.at e o.spurious).count n ≤ (lostOf x.sent).count n + ((o.at e o.lost).map Prod.fst).count n

theorem Queues.same {x y : Space} {e : Epoch} {o : Out} (h1 : y.ackedFrames = x.ackedFrames) (h2 : y.lostAck = x.lostAck)
    (h3 : y.lostPto = x.lostPto) (ho : o.handed = none) (ha : o.at e o.acked = []) (hl : o.at e o.lost = []) : Queues x y e o := by
  refine ⟨?_, ?_, [], ?_, by intro f hf; exact nomatch hf⟩
  · rw [handedBy_none _ _ ho, ha, h1]; simp [framesOf]
  · rw [handedBy_none _ _ ho, hl, h2]; simp [framesOf]
  · rw [handedBy_none _ _ ho, h3]; simp

theorem Losses.same {x y : Space} {e : Epoch} {o : Out} (h : lostOf y.sent = lostOf x.sent) (ho : o.at e o.spurious = []) : Losses x y e o := by
  refine ⟨?_, ?_⟩
  · rw [ho]; intro n hn; exact nomatch hn
  · intro n; rw [h, ho]; simp only [List.count_nil]; omega

theorem lostOf_nodup {l : List Pk} (h : Sorted l) : (lostOf l).Nodup := by
  induction l with
  | nil => exact List.Pairwise.nil
  | cons p l ih =>
    have h' := List.pairwise_cons.1 h
    obtain ⟨pn, st⟩ := p
    cases st with
    | sent i => exact ih h'.2
    | acked => exact ih h'.2
    | lost =>
      refine List.pairwise_cons.2 ⟨?_, ih h'.2⟩
      intro n hn he
      subst he
      exact absurd (h'.1 _ (lostOf_mem hn)) (Nat.lt_irrefl _)

theorem lose_losses (delay : Nat) (thresh : Option Nat) (now : Nat) {x : Space} (h : SpaceInv x) (n : Nat) :
    (lostOf (x.lose delay thresh now).2.sent).count n ≤
      (lostOf x.sent).count n + ((x.lose delay thresh now).1.lost.map Prod.fst).count n := by
  obtain ⟨l1, l2, l3, l4, l5, l6, l7, l8, l9, l10, l11, l12, l13, l14, l15⟩ := lose_spec delay thresh now h
  have hc := List.nodup_iff_count.1 (lostOf_nodup l1.sorted) n
  by_cases hm : n ∈ lostOf (x.lose delay thresh now).2.sent
  · rcases l14 n hm with h' | h'
    · have := List.count_pos_iff.2 h'; omega
    · have := List.count_pos_iff.2 h'; omega
  · rw [List.count_eq_zero.2 hm]; omega

theorem step_queues (en : Env σ) {s : State σ} (o : Op) (h : Inv s) (e : Epoch) :
    ((∀ st now, o ≠ .discard e st now) → Queues (s.get e) ((step en s o).1.get e) e (step en s o).2) ∧
    Losses (s.get e) ((step en s o).1.get e) e (step en s o).2 := by
  have hlose : ∀ (t : State σ), Inv t → ∀ (e' : Epoch) (now : Nat) (out : Out), out.epoch = e' → out.handed = none → out.acked = [] →
      out.lost = (t.detectLost en e' now).1.lost → out.spurious = [] →
      Queues (t.get e) ((t.detectLost en e' now).2.get e) e out ∧ Losses (t.get e) ((t.detectLost en e' now).2.get e) e out := by
    intro t ht e' now out h1 h2 h3 h4 h5
    obtain ⟨d1, d2, -⟩ := detectLost_spec en t e' now
    rw [d2]
    rw [d1] at h4
    by_cases hee : e = e'
    · subst hee
      rw [if_pos rfl]
      obtain ⟨l1, l2, l3, l4, l5, l6, l7, l8, l9, l10, l11, l12, l13, l14, l15⟩ := lose_spec (t.lossDelay en) t.thresh.pkt now (ht e)
      refine ⟨⟨?_, ?_, [], ?_, fun f hf => nomatch hf⟩, ?_, ?_⟩
      · rw [handedBy_none _ _ h2, l9, h3, Out.at_nil]; simp [framesOf]
      · rw [handedBy_none _ _ h2, l5]
        simp [Out.at, h1, h4]
      · rw [handedBy_none _ _ h2, l10]; simp
      · rw [h5, Out.at_nil]; intro n hn; exact nomatch hn
      · intro n
        rw [h5, Out.at_nil]
        have := lose_losses (t.lossDelay en) t.thresh.pkt now (ht e) n
        simp only [Out.at, h1, h4, if_true, List.count_nil]
        omega
    · rw [if_neg hee]
      have hn : out.epoch ≠ e := fun hh => hee (hh.symm.trans h1)
      exact ⟨Queues.same rfl rfl rfl h2 (if_neg hn) (if_neg hn), Losses.same rfl (if_neg hn)⟩
  cases o with
  | send e' p st now =>
    have hg : (step en s (.send e' p st now)).1.get e = _ := onSent_get en s e' p st now e
    rw [hg]
    by_cases hee : e = e'
    · subst hee
      rw [if_pos rfl]
      refine ⟨fun _ => Queues.same rfl rfl rfl rfl (Out.at_nil ..) (Out.at_nil ..), Losses.same ?_ (Out.at_nil ..)⟩
      show lostOf ((s.get e).sent ++ [_]) = _
      generalize (s.get e).sent = l
      induction l with
      | nil => rfl
      | cons q l ih =>
        obtain ⟨pn, f⟩ := q
        cases f with
        | sent i => exact ih
        | acked => exact ih
        | lost => exact congrArg (pn :: ·) ih
    · rw [if_neg hee]
      exact ⟨fun _ => Queues.same rfl rfl rfl rfl (Out.at_nil ..) (Out.at_nil ..), Losses.same rfl (Out.at_nil ..)⟩
  | ack e' rs delay st now skip =>
    show ((∀ st now, _) → Queues (s.get e) ((s.onAck en e' rs delay st now skip).1.get e) e (s.onAck en e' rs delay st now skip).2) ∧
      Losses (s.get e) ((s.onAck en e' rs delay st now skip).1.get e) e (s.onAck en e' rs delay st now skip).2
    by_cases hee : e = e'
    · subst hee
      obtain ⟨a1, a2, a3, a4, a5, a6, a7, a8, a9, ⟨L, a10, a10'⟩, a11, a12, a13, a14⟩ := acked_spec skip rs (h e)
      have hcnt : ∀ n, (lostOf ((s.get e).acked skip rs).2.2.sent).count n + (((s.get e).acked skip rs).2.1.spurious).count n ≤
          (lostOf (s.get e).sent).count n := by
        intro n
        have c1 := List.perm_iff_count.1 a10 n
        have c2 := a10'.count_le n
        rw [List.count_append] at c1
        omega
      have hkn : ∀ n ∈ ((s.get e).acked skip rs).2.1.spurious, n ∈ lostOf (s.get e).sent := by
        intro n hn
        exact a10.symm.subset (List.mem_append_right _ hn)
      rcases onAck_cases en s e rs delay st now skip with ⟨_, he⟩ | ⟨hnf, hn, he⟩ | ⟨hnf, last, hl, he⟩
      · rw [he]
        have hg : ({ s.set e ((s.get e).acked skip rs).2.2 with failed := true } : State σ).get e = ((s.get e).acked skip rs).2.2 :=
          (get_congr rfl rfl rfl e).trans (get_set_same ..)
        dsimp only
        rw [hg]
        refine ⟨fun _ => ⟨?_, ?_, [], ?_, fun f hf => nomatch hf⟩, ?_, ?_⟩
        · rw [handedBy_none _ _ rfl, a5]; simp [Out.at]
        · rw [handedBy_none _ _ rfl, a6, Out.at_nil]; simp [framesOf]
        · rw [handedBy_none _ _ rfl, a7]; simp
        · intro n hn; rw [Out.at, if_pos rfl] at hn; exact hkn n hn
        · intro n; rw [Out.at, if_pos rfl, Out.at_nil]; have := hcnt n; simpa using this
      · rw [he]
        dsimp only
        rw [spurious_get, get_set_same]
        refine ⟨fun _ => ⟨?_, ?_, [], ?_, fun f hf => nomatch hf⟩, ?_, ?_⟩
        · rw [handedBy_none _ _ rfl, a5, hn, Out.at_nil]; simp
        · rw [handedBy_none _ _ rfl, a6, Out.at_nil]; simp [framesOf]
        · rw [handedBy_none _ _ rfl, a7]; simp
        · intro n hn; rw [Out.at, if_pos rfl] at hn; exact hkn n hn
        · intro n; rw [Out.at, if_pos rfl, Out.at_nil]; have := hcnt n; simpa using this
      · obtain ⟨t, ht⟩ : ∃ t, t = ackState en s e rs delay st now skip last := ⟨_, rfl⟩
        obtain ⟨g1, g2, g3, g4, g5, g6, g7, g8, g9, g10, -⟩ := ackTail_spec en s e rs delay st now skip last ht he
        have hti : Inv t := by rw [ht]; exact ackState_inv en h e rs delay st now skip last
        have htg := ackState_get en s e rs delay st now skip last e
        rw [← ht, if_pos rfl] at htg
        obtain ⟨d1, d2, -⟩ := detectLost_spec en t e now
        obtain ⟨l1, l2, l3, l4, l5, l6, l7, l8, l9, l10, l11, l12, l13, l14, l15⟩ := lose_spec (t.lossDelay en) t.thresh.pkt now (hti e)
        have hlc := lose_losses (t.lossDelay en) t.thresh.pkt now (hti e)
        have e1 : (t.get e).ackedFrames = ((s.get e).acked skip rs).2.2.ackedFrames := by rw [htg]
        have e2 : (t.get e).lostAck = ((s.get e).acked skip rs).2.2.lostAck := by rw [htg]
        have e3 : (t.get e).lostPto = ((s.get e).acked skip rs).2.2.lostPto := by rw [htg]
        have e4 : (t.get e).sent = ((s.get e).acked skip rs).2.2.sent := by rw [htg]
        generalize s.onAck en e rs delay st now skip = r at *
        rw [g1, d2, if_pos rfl]
        rw [d1] at g7
        refine ⟨fun _ => ⟨?_, ?_, [], ?_, fun f hf => nomatch hf⟩, ?_, ?_⟩
        · rw [handedBy_none _ _ g10, l9, e1, a5]; simp [Out.at, g4, g6]
        · rw [handedBy_none _ _ g10, l5, e2, a6]; simp [Out.at, g4, g7]
        · rw [handedBy_none _ _ g10, l10, e3, a7]; simp
        · intro n hn; rw [Out.at, if_pos g4, g9] at hn; exact hkn n hn
        · intro n
          rw [Out.at, if_pos g4, Out.at, if_pos g4, g9, g7]
          have c1 := hcnt n
          have c2 := hlc n
          rw [e4] at c2
          omega
    · have hne : ∀ (r : State σ × Out), r = s.onAck en e' rs delay st now skip → r.1.get e = s.get e ∧ r.2.epoch = e' ∧ r.2.handed = none := by
        intro r hr
        rcases onAck_cases en s e' rs delay st now skip with ⟨_, he⟩ | ⟨hnf, hn, he⟩ | ⟨hnf, last, hl, he⟩
        · rw [he] at hr; subst hr
          exact ⟨(get_congr rfl rfl rfl e).trans (get_set_other _ _ hee), rfl, rfl⟩
        · rw [he] at hr; subst hr
          exact ⟨by dsimp only; rw [spurious_get, get_set_other _ _ hee], rfl, rfl⟩
        · obtain ⟨t, ht⟩ : ∃ t, t = ackState en s e' rs delay st now skip last := ⟨_, rfl⟩
          obtain ⟨g1, g2, g3, g4, g5, g6, g7, g8, g9, g10, -⟩ := ackTail_spec en s e' rs delay st now skip last ht (hr.trans he)
          refine ⟨?_, g4, g10⟩
          rw [g1, (detectLost_spec en t e' now).2.1, if_neg hee, ht, ackState_get, if_neg hee]
      obtain ⟨h1, h2, h3⟩ := hne _ rfl
      rw [h1]
      have hn : (s.onAck en e' rs delay st now skip).2.epoch ≠ e := fun hh => hee (hh.symm.trans h2)
      exact ⟨fun _ => Queues.same rfl rfl rfl h3 (if_neg hn) (if_neg hn), Losses.same rfl (if_neg hn)⟩
  | timeout st now =>
    show ((∀ st now, _) → Queues (s.get e) ((s.onTimeout en st now).1.get e) e (s.onTimeout en st now).2) ∧
      Losses (s.get e) ((s.onTimeout en st now).1.get e) e (s.onTimeout en st now).2
    unfold State.onTimeout
    split
    · dsimp only
      rw [setTimer_get]
      refine ⟨fun _ => (hlose s h s.lossTimeAndSpace.2 now _ ?_ ?_ ?_ ?_ ?_).1, (hlose s h s.lossTimeAndSpace.2 now _ ?_ ?_ ?_ ?_ ?_).2⟩ <;> rfl
    · dsimp only
      rw [(onPto_spec en s st now).1]
      split
      · obtain ⟨p1, p2, p3, fs, p4, p5⟩ := onProbe_queues (s.ptoCount + 1) (s.get e)
        refine ⟨fun _ => ⟨?_, ?_, fs, ?_, p5⟩, Losses.same (by rw [p3]) (Out.at_nil ..)⟩
        · rw [handedBy_none _ _ rfl, p1]; show _ = _ ++ framesOf (Out.at Out.none e []); rw [Out.at_nil]; simp [framesOf]
        · rw [handedBy_none _ _ rfl, p2]; show _ = _ ++ framesOf (Out.at Out.none e []); rw [Out.at_nil]; simp [framesOf]
        · rw [handedBy_none _ _ rfl, p4]; simp
      · exact ⟨fun _ => Queues.same rfl rfl rfl rfl (Out.at_nil ..) (Out.at_nil ..), Losses.same rfl (Out.at_nil ..)⟩
  | discard e' st now =>
    show ((∀ st' now', _) → Queues (s.get e) ((s.onDiscard en e' st now).1.get e) e (s.onDiscard en e' st now).2) ∧
      Losses (s.get e) ((s.onDiscard en e' st now).1.get e) e (s.onDiscard en e' st now).2
    rw [(onDiscard_spec en s e' st now).1]
    by_cases hee : e = e'
    · subst hee
      rw [if_pos rfl]
      refine ⟨fun hd => absurd rfl (hd st now), ?_, ?_⟩
      · intro n hn
        have : n ∈ Out.at (s.onDiscard en e st now).2 e ([] : List Nat) := hn
        rw [Out.at_nil] at this; exact nomatch this
      · intro n
        show (lostOf []).count n + (Out.at (s.onDiscard en e st now).2 e ([] : List Nat)).count n ≤ _
        rw [Out.at_nil]
        simp [lostOf]
    · rw [if_neg hee]
      exact ⟨fun _ => Queues.same rfl rfl rfl rfl (Out.at_nil ..) (Out.at_nil ..), Losses.same rfl (Out.at_nil ..)⟩
  | pathChange e' now =>
    have := hlose s h e' now (s.onPathChange en e' now).2 rfl rfl rfl rfl rfl
    exact ⟨fun _ => this.1, this.2⟩
  | pingSent e' =>
    show ((∀ st now, _) → Queues (s.get e) ((s.set e' { s.get e' with lossProbes := (s.get e').lossProbes - 1 }).get e) e Out.none) ∧
      Losses (s.get e) ((s.set e' { s.get e' with lossProbes := (s.get e').lossProbes - 1 }).get e) e Out.none
    by_cases hee : e = e'
    · subst hee; rw [get_set_same]
      exact ⟨fun _ => Queues.same rfl rfl rfl rfl (Out.at_nil ..) (Out.at_nil ..), Losses.same rfl (Out.at_nil ..)⟩
    · rw [get_set_other _ _ hee]
      exact ⟨fun _ => Queues.same rfl rfl rfl rfl (Out.at_nil ..) (Out.at_nil ..), Losses.same rfl (Out.at_nil ..)⟩
  | nextAcked e' =>
    show ((∀ st now, _) → Queues (s.get e) ((s.set e' (s.get e').nextAcked.1).get e) e
        { Out.none with epoch := e', handed := (s.get e').nextAcked.2 }) ∧
      Losses (s.get e) ((s.set e' (s.get e').nextAcked.1).get e) e { Out.none with epoch := e', handed := (s.get e').nextAcked.2 }
    by_cases hee : e = e'
    · subst hee; rw [get_set_same]
      obtain ⟨n1, n2, n3, n4, n5, n6⟩ := nextAcked_same (s.get e)
      refine ⟨fun _ => ⟨?_, ?_, [], ?_, fun f hf => nomatch hf⟩, Losses.same (by rw [n1]) (Out.at_nil ..)⟩
      · show _ = _ ++ framesOf (Out.at _ e [])
        rw [Out.at_nil]
        rw [show handedBy .acked e { Out.none with epoch := e, handed := (s.get e).nextAcked.2 } = pick .acked (s.get e).nextAcked.2 from if_pos rfl,
          (nextAcked_pick (s.get e)).1]
        simp [framesOf]
      · show _ = _ ++ framesOf (Out.at _ e [])
        rw [Out.at_nil, n5]
        have : handedBy .lost e { Out.none with epoch := e, handed := (s.get e).nextAcked.2 } = [] := by
          rw [handedBy, if_pos rfl]; exact (nextAcked_pick (s.get e)).2.1
        rw [this]; simp [framesOf]
      · have : handedBy .pto e { Out.none with epoch := e, handed := (s.get e).nextAcked.2 } = [] := by
          rw [handedBy, if_pos rfl]; exact (nextAcked_pick (s.get e)).2.2
        rw [this, n6]; simp
    · rw [get_set_other _ _ hee]
      have hn : ∀ q, handedBy q e { Out.none with epoch := e', handed := (s.get e').nextAcked.2 } = [] := fun q => if_neg (fun hh => hee hh.symm)
      refine ⟨fun _ => ⟨?_, ?_, [], ?_, fun f hf => nomatch hf⟩, Losses.same rfl (Out.at_nil ..)⟩
      · rw [hn]; show _ = _ ++ framesOf (Out.at _ e []); rw [Out.at_nil]; simp [framesOf]
      · rw [hn]; show _ = _ ++ framesOf (Out.at _ e []); rw [Out.at_nil]; simp [framesOf]
      · rw [hn]; simp
  | nextLost e' =>
    show ((∀ st now, _) → Queues (s.get e) ((s.set e' (s.get e').nextLost.1).get e) e
        { Out.none with epoch := e', handed := (s.get e').nextLost.2 }) ∧
      Losses (s.get e) ((s.set e' (s.get e').nextLost.1).get e) e { Out.none with epoch := e', handed := (s.get e').nextLost.2 }
    by_cases hee : e = e'
    · subst hee; rw [get_set_same]
      obtain ⟨n1, n2, n3, n4, n5⟩ := nextLost_same (s.get e)
      refine ⟨fun _ => ⟨?_, ?_, [], ?_, fun f hf => nomatch hf⟩, Losses.same (by rw [n1]) (Out.at_nil ..)⟩
      · show _ = _ ++ framesOf (Out.at _ e [])
        rw [Out.at_nil, n5]
        have : handedBy .acked e { Out.none with epoch := e, handed := (s.get e).nextLost.2 } = [] := by
          rw [handedBy, if_pos rfl]; exact (nextLost_pick (s.get e)).1
        rw [this]; simp [framesOf]
      · show _ = _ ++ framesOf (Out.at _ e [])
        rw [Out.at_nil]
        rw [show handedBy .lost e { Out.none with epoch := e, handed := (s.get e).nextLost.2 } = pick .lost (s.get e).nextLost.2 from if_pos rfl,
          (nextLost_pick (s.get e)).2.1]
        simp [framesOf]
      · rw [show handedBy .pto e { Out.none with epoch := e, handed := (s.get e).nextLost.2 } = pick .pto (s.get e).nextLost.2 from if_pos rfl,
          (nextLost_pick (s.get e)).2.2]
        simp
    · rw [get_set_other _ _ hee]
      have hn : ∀ q, handedBy q e { Out.none with epoch := e', handed := (s.get e').nextLost.2 } = [] := fun q => if_neg (fun hh => hee hh.symm)
      refine ⟨fun _ => ⟨?_, ?_, [], ?_, fun f hf => nomatch hf⟩, Losses.same rfl (Out.at_nil ..)⟩
      · rw [hn]; show _ = _ ++ framesOf (Out.at _ e []); rw [Out.at_nil]; simp [framesOf]
      · rw [hn]; show _ = _ ++ framesOf (Out.at _ e []); rw [Out.at_nil]; simp [framesOf]
      · rw [hn]; simp
  | ackDelay d =>
    have hg : (step en s (.ackDelay d)).1.get e = s.get e := get_congr rfl rfl rfl e
    rw [hg]
    exact ⟨fun _ => Queues.same rfl rfl rfl rfl (Out.at_nil ..) (Out.at_nil ..), Losses.same rfl (Out.at_nil ..)⟩

/-! ### Histories -/

theorem run_queues (en : Env σ) (e : Epoch) : ∀ (os : List Op) (s : State σ), Inv s → Ascending os → Below s os → Kept e os →
    handedIn .acked e (run en s os).2 ++ ((run en s os).1.get e).ackedFrames = (s.get e).ackedFrames ++ framesOf (ackedIn e (run en s os).2) ∧
    handedIn .lost e (run en s os).2 ++ ((run en s os).1.get e).lostAck = (s.get e).lostAck ++ framesOf (lostIn e (run en s os).2)
  | [], s, _, _, _, _ => by simp [run, handedIn, ackedIn, lostIn, framesOf]
  | o :: os, s, hi, ha, hb, hk => by
    have hf := step_facts en hi o hb.fresh
    obtain ⟨r1, r2⟩ := run_queues en e os (step en s o).1 hf.inv ha.tail (hb.step en ha hf)
      (fun st now hm => hk st now (List.mem_cons_of_mem _ hm))
    have hq := (step_queues en o hi e).1 (fun st now he => hk st now (he ▸ List.mem_cons_self ..))
    refine ⟨?_, ?_⟩
    · show (handedBy .acked e (step en s o).2 ++ handedIn .acked e (run en (step en s o).1 os).2) ++
        ((run en (step en s o).1 os).1.get e).ackedFrames = _ ++ framesOf ((step en s o).2.at e (step en s o).2.acked ++ _)
      rw [List.append_assoc, r1, ← List.append_assoc, hq.acked, framesOf_append, List.append_assoc]; rfl
    · show (handedBy .lost e (step en s o).2 ++ handedIn .lost e (run en (step en s o).1 os).2) ++
        ((run en (step en s o).1 os).1.get e).lostAck = _ ++ framesOf ((step en s o).2.at e (step en s o).2.lost ++ _)
      rw [List.append_assoc, r2, ← List.append_assoc, hq.lost, framesOf_append, List.append_assoc]; rfl

theorem run_losses (en : Env σ) (e : Epoch) : ∀ (os : List Op) (s : State σ), Inv s → Ascending os → Below s os →
    ∀ n, (lostOf ((run en s os).1.get e).sent).count n + (spuriousIn e (run en s os).2).count n ≤
      (lostOf (s.get e).sent).count n + ((lostIn e (run en s os).2).map Prod.fst).count n
  | [], s, _, _, _ => by intro n; simp [run, spuriousIn, lostIn]
  | o :: os, s, hi, ha, hb => by
    intro n
    have hf := step_facts en hi o hb.fresh
    have r := run_losses en e os (step en s o).1 hf.inv ha.tail (hb.step en ha hf) n
    have hl := (step_queues en o hi e).2.count n
    show _ + ((step en s o).2.at e (step en s o).2.spurious ++ spuriousIn e (run en (step en s o).1 os).2).count n ≤
      _ + (((step en s o).2.at e (step en s o).2.lost ++ lostIn e (run en (step en s o).1 os).2).map Prod.fst).count n
    rw [List.count_append, List.map_append, List.count_append]
    have : ((run en s (o :: os)).1.get e) = ((run en (step en s o).1 os).1.get e) := rfl
    rw [this]
    omega

/-- The numbers of the packets sent in a space ascend. -/
theorem sent_numbers (en : Env σ) (e : Epoch) : ∀ (os : List Op) (s : State σ),
    ((sentIn e (run en s os).2).map Prod.fst).Sublist (numbers os)
  | [], _ => List.Sublist.refl _
  | o :: os, s => by
    have ih := sent_numbers en e os (step en s o).1
    have hz : (∀ e' p st now, o ≠ .send e' p st now) → (step en s o).2.at e (step en s o).2.sent = [] := by
      intro hn
      rw [List.eq_nil_iff_forall_not_mem]
      intro x hx
      obtain ⟨p, st, now, h, _⟩ := step_sent en s _ e x hx
      exact hn _ _ _ _ h
    show (((step en s o).2.at e (step en s o).2.sent ++ sentIn e (run en (step en s o).1 os).2).map Prod.fst).Sublist _
    rw [List.map_append]
    cases o with
    | send e' p st now =>
      show (List.map Prod.fst (if e' = e then [(p.pn, p.info (en.cc.sendTime s.cc now))] else []) ++ _).Sublist (p.pn :: numbers os)
      split
      · exact ih.cons₂ _
      · exact ih.cons _
    | _ =>
      rw [hz (by intro _ _ _ _ h; exact nomatch h)]
      exact ih

section
variable (en : Env σ) (t0 r d : Nat) (relaxed : Bool) (c : σ)

/-- **C131.** The packets sent in a space are those open, acknowledged, lost or forgotten. -/
theorem partition (os : List Op) (ha : Ascending os) (e : Epoch) :
    (sentIn e (run en (State.new t0 r d relaxed c) os).2).Perm
      (((run en (State.new t0 r d relaxed c) os).1.get e).live ++ (ackedIn e (run en (State.new t0 r d relaxed c) os).2 ++
        (lostIn e (run en (State.new t0 r d relaxed c) os).2 ++ droppedIn e (run en (State.new t0 r d relaxed c) os).2))) := by
  have h := (run_facts en os _ (new_inv t0 r d relaxed c) ha (new_below t0 r d relaxed c os)).2.1 e
  have hz : ((State.new t0 r d relaxed c).get e).live = [] := by cases e <;> rfl
  rw [hz] at h
  exact h

/-- **C131.** No packet is acknowledged, lost and forgotten more than once, taken together. -/
theorem once (os : List Op) (ha : Ascending os) (e : Epoch) :
    ((ackedIn e (run en (State.new t0 r d relaxed c) os).2 ++
      (lostIn e (run en (State.new t0 r d relaxed c) os).2 ++ droppedIn e (run en (State.new t0 r d relaxed c) os).2)).map Prod.fst).Nodup := by
  have hp := (partition en t0 r d relaxed c os ha e).map Prod.fst
  have hn : ((sentIn e (run en (State.new t0 r d relaxed c) os).2).map Prod.fst).Nodup :=
    List.Pairwise.imp (fun h => Nat.ne_of_lt h) (List.Pairwise.sublist (sent_numbers en e os _) ha)
  have := hp.nodup_iff.1 hn
  rw [List.map_append] at this
  exact (List.nodup_append.1 this).2.1

/-- The open packets are those sent and not decided. -/
theorem open_iff (os : List Op) (ha : Ascending os) (e : Epoch) (x : Nat × Info) :
    x ∈ ((run en (State.new t0 r d relaxed c) os).1.get e).live ↔
      x ∈ sentIn e (run en (State.new t0 r d relaxed c) os).2 ∧ x ∉ ackedIn e (run en (State.new t0 r d relaxed c) os).2 ∧
      x ∉ lostIn e (run en (State.new t0 r d relaxed c) os).2 ∧ x ∉ droppedIn e (run en (State.new t0 r d relaxed c) os).2 := by
  have hp := partition en t0 r d relaxed c os ha e
  have hn : (sentIn e (run en (State.new t0 r d relaxed c) os).2).Nodup := by
    have : ((sentIn e (run en (State.new t0 r d relaxed c) os).2).map Prod.fst).Nodup :=
      List.Pairwise.imp (fun h => Nat.ne_of_lt h) (List.Pairwise.sublist (sent_numbers en e os _) ha)
    exact List.Pairwise.imp (fun h he => h (congrArg _ he)) (List.pairwise_map.1 this)
  have hd := List.nodup_append.1 (hp.nodup_iff.1 hn)
  constructor
  · intro hx
    refine ⟨hp.symm.subset (List.mem_append_left _ hx), fun h => hd.2.2 x hx x (List.mem_append_left _ h) rfl,
      fun h => hd.2.2 x hx x (List.mem_append_right _ (List.mem_append_left _ h)) rfl,
      fun h => hd.2.2 x hx x (List.mem_append_right _ (List.mem_append_right _ h)) rfl⟩
  · rintro ⟨h1, h2, h3, h4⟩
    have := hp.subset h1
    simp only [List.mem_append] at this
    rcases this with h | h | h | h
    · exact h
    · exact absurd h h2
    · exact absurd h h3
    · exact absurd h h4

/-- **C131.** An ACK acknowledges the open packets in its ranges. -/
theorem acked_exactly (os : List Op) (ha : Ascending os) (e : Epoch) (rs : List (Nat × Nat)) (delay : Nat) (st : Status) (now : Nat)
    (skip : Option Nat) {s : State σ} (hs : s = (run en (State.new t0 r d relaxed c) os).1)
    (hf : s.failed = false) (hok : (step en s (.ack e rs delay st now skip)).1.failed = false) (x : Nat × Info) :
    x ∈ (step en s (.ack e rs delay st now skip)).2.acked ↔
      (x ∈ sentIn e (run en (State.new t0 r d relaxed c) os).2 ∧ x ∉ ackedIn e (run en (State.new t0 r d relaxed c) os).2 ∧
      x ∉ lostIn e (run en (State.new t0 r d relaxed c) os).2 ∧ x ∉ droppedIn e (run en (State.new t0 r d relaxed c) os).2) ∧
      ∃ r ∈ rs, r.1 ≤ x.1 ∧ x.1 < r.2 := by
  rw [← open_iff en t0 r d relaxed c os ha e x, ← hs]
  have hi : Inv s := by rw [hs]; exact (run_facts en os _ (new_inv t0 r d relaxed c) ha (new_below t0 r d relaxed c os)).1
  have hout : (step en s (.ack e rs delay st now skip)).2.acked = ((s.get e).acked skip rs).2.1.newly ∧ ((s.get e).acked skip rs).1 = false := by
    have hok' : (s.onAck en e rs delay st now skip).1.failed = false := hok
    show (s.onAck en e rs delay st now skip).2.acked = _ ∧ _
    rcases onAck_cases en s e rs delay st now skip with ⟨_, he⟩ | ⟨hnf, hn, he⟩ | ⟨hnf, last, hl, he⟩
    · rw [he] at hok'; cases hok'
    · rw [he]; exact ⟨hn.symm, hnf⟩
    · rw [he]; exact ⟨rfl, hnf⟩
  rw [hout.1]
  obtain ⟨a1, a2, a3, a4, a5, a6, a7, a8, a9, a10, a11, a12, a13, a14⟩ := acked_spec skip rs (hi e)
  have hl := acked_live skip rs (hi e) hout.2
  constructor
  · intro hx
    obtain ⟨q, hq, hin⟩ := a8 x hx
    refine ⟨a2.symm.subset (List.mem_append_right _ hx), q, hq, ?_⟩
    simpa [inR] using hin
  · rintro ⟨hx, q, hq, hin⟩
    rcases List.mem_append.1 (a2.subset hx) with h | h
    · rw [hl] at h
      have := (List.mem_filter.1 h).2
      have hc : covered rs x.1 = true := List.any_eq_true.2 ⟨q, hq, by simp [inR, hin.1, hin.2]⟩
      rw [hc] at this
      exact nomatch this
    · exact h

/-- **C131.** The frames handed out as acknowledged are those of the acknowledged packets,
in order; the rest of them waits. -/
theorem acked_frames (os : List Op) (ha : Ascending os) (e : Epoch) (hk : Kept e os) :
    handedIn .acked e (run en (State.new t0 r d relaxed c) os).2 ++ ((run en (State.new t0 r d relaxed c) os).1.get e).ackedFrames =
      framesOf (ackedIn e (run en (State.new t0 r d relaxed c) os).2) := by
  have h := (run_queues en e os _ (new_inv t0 r d relaxed c) ha (new_below t0 r d relaxed c os) hk).1
  rw [h]
  cases e <;> rfl

/-- **C131.** The frames handed out as lost are those of the lost packets. -/
theorem lost_frames (os : List Op) (ha : Ascending os) (e : Epoch) (hk : Kept e os) :
    handedIn .lost e (run en (State.new t0 r d relaxed c) os).2 ++ ((run en (State.new t0 r d relaxed c) os).1.get e).lostAck =
      framesOf (lostIn e (run en (State.new t0 r d relaxed c) os).2) := by
  have h := (run_queues en e os _ (new_inv t0 r d relaxed c) ha (new_below t0 r d relaxed c os) hk).2
  rw [h]
  cases e <;> rfl

/-- **C131.** A packet is counted as spuriously lost at most once. -/
theorem spurious_once (os : List Op) (ha : Ascending os) (e : Epoch) : (spuriousIn e (run en (State.new t0 r d relaxed c) os).2).Nodup := by
  rw [List.nodup_iff_count]
  intro n
  have h := run_losses en e os _ (new_inv t0 r d relaxed c) ha (new_below t0 r d relaxed c os) n
  have hz : lostOf ((State.new t0 r d relaxed c).get e).sent = [] := by cases e <;> rfl
  rw [hz, List.count_nil] at h
  have hn := once en t0 r d relaxed c os ha e
  rw [List.map_append, List.map_append] at hn
  have := List.nodup_iff_count.1 (List.nodup_append.1 (List.nodup_append.1 hn).2.1).1 n
  omega

/-- **C131.** A packet counted as spuriously lost was declared lost before. -/
theorem spurious_lost (os : List Op) (o : Op) (ha : Ascending os) (e : Epoch) {s : State σ}
    (hs : s = (run en (State.new t0 r d relaxed c) os).1) :
    ∀ n ∈ (step en s o).2.at e (step en s o).2.spurious, n ∈ (lostIn e (run en (State.new t0 r d relaxed c) os).2).map Prod.fst := by
  intro n hn
  have hi : Inv s := by rw [hs]; exact (run_facts en os _ (new_inv t0 r d relaxed c) ha (new_below t0 r d relaxed c os)).1
  have hk := (step_queues en o hi e).2.known n hn
  have h := run_losses en e os _ (new_inv t0 r d relaxed c) ha (new_below t0 r d relaxed c os) n
  have hz : lostOf ((State.new t0 r d relaxed c).get e).sent = [] := by cases e <;> rfl
  rw [hz, List.count_nil, ← hs] at h
  have := List.count_pos_iff.2 hk
  exact List.count_pos_iff.1 (by omega)

/-- The queue of frames to repeat, in every history. -/
theorem run_pto (e : Epoch) : ∀ (os : List Op) (s : State σ) (P : Fr → Prop), Inv s → Ascending os → Below s os →
    (∀ f ∈ (s.get e).lostPto, P f) → (∀ f ∈ framesOf (s.get e).live, f.isDgram = false → P f) →
    (∀ f ∈ framesOf (sentIn e (run en s os).2), f.isDgram = false → P f) →
    (∀ f ∈ handedIn .pto e (run en s os).2, P f) ∧ (∀ f ∈ ((run en s os).1.get e).lostPto, P f)
  | [], s, P, _, _, _, h, _, _ => ⟨(fun f hf => nomatch hf), h⟩
  | o :: os, s, P, hi, ha, hb, h, hl, hs => by
    have hf := step_facts en hi o hb.fresh
    have hsent : sentIn e (run en s (o :: os)).2 = (step en s o).2.at e (step en s o).2.sent ++ sentIn e (run en (step en s o).1 os).2 := rfl
    rw [hsent, framesOf_append] at hs
    have hlive : ∀ f ∈ framesOf ((step en s o).1.get e).live, f.isDgram = false → P f := by
      intro f hff hd
      obtain ⟨x, hx, hxf⟩ := List.mem_flatMap.1 hff
      have := (hf.moved e).symm.subset (List.mem_append_left _ hx)
      rcases List.mem_append.1 this with h' | h'
      · exact hl f (List.mem_flatMap.2 ⟨x, h', hxf⟩) hd
      · exact hs f (List.mem_append_left _ (List.mem_flatMap.2 ⟨x, h', hxf⟩)) hd
    have hstep : (∀ f ∈ handedBy .pto e (step en s o).2, P f) ∧ (∀ f ∈ ((step en s o).1.get e).lostPto, P f) := by
      by_cases hd : ∃ st now, o = .discard e st now
      · obtain ⟨st, now, rfl⟩ := hd
        refine ⟨?_, ?_⟩
        · rw [handedBy_none _ _ rfl]; intro f hf; exact nomatch hf
        · rw [show (step en s (.discard e st now)).1.get e = _ from (onDiscard_spec en s e st now).1 e, if_pos rfl]
          intro f hf; exact nomatch hf
      · obtain ⟨fs, q1, q2⟩ := ((step_queues en o hi e).1 (fun st now he => hd ⟨st, now, he⟩)).pto
        have : ∀ f ∈ handedBy .pto e (step en s o).2 ++ ((step en s o).1.get e).lostPto, P f := by
          rw [q1]
          intro f hf
          rcases List.mem_append.1 hf with h' | h'
          · exact h f h'
          · exact hl f (q2 f h').2 (q2 f h').1
        exact ⟨fun f hf => this f (List.mem_append_left _ hf), fun f hf => this f (List.mem_append_right _ hf)⟩
    obtain ⟨r1, r2⟩ := run_pto e os (step en s o).1 P hf.inv ha.tail (hb.step en ha hf) hstep.2 hlive
      (fun f hf => hs f (List.mem_append_right _ hf))
    refine ⟨?_, r2⟩
    intro f hff
    have : f ∈ handedBy .pto e (step en s o).2 ++ handedIn .pto e (run en (step en s o).1 os).2 := hff
    rcases List.mem_append.1 this with h' | h'
    · exact hstep.1 f h'
    · exact r1 f h'

/-- **C131.** What probes repeat are frames of packets sent in the space, and no DATAGRAM
frames. -/
theorem probe_frames (os : List Op) (ha : Ascending os) (e : Epoch) :
    ∀ f ∈ handedIn .pto e (run en (State.new t0 r d relaxed c) os).2,
      f.isDgram = false ∧ f ∈ framesOf (sentIn e (run en (State.new t0 r d relaxed c) os).2) := by
  refine (run_pto en e os _ _ (new_inv t0 r d relaxed c) ha (new_below t0 r d relaxed c os) ?_ ?_ ?_).1
  · intro f hf; cases e <;> exact nomatch hf
  · intro f hf; cases e <;> exact nomatch hf
  · intro f hf hd; exact ⟨hd, hf⟩

end

/-! ### Witnesses -/

/-- Four packets sent, the last acknowledged, the first two lost by distance and time, one
of them acknowledged late and one frame of each kind handed out. -/
def story : List Op :=
  [.send .application (data 0 1000) done 5, .send .application (data 1 1000) done 5, .send .application (data 2 1000) done 200000000,
   .send .application (data 3 1000) done 200000000, .ack .application [(3, 4)] 0 done 200000100 none,
   .nextAcked .application, .nextLost .application, .nextLost .application, .nextLost .application,
   .ack .application [(0, 2), (2, 4)] 0 done 200000200 none]

example : Ascending story ∧
    (lostIn .application (run quietEnv s0 story).2).map Prod.fst = [0, 1] ∧
    (ackedIn .application (run quietEnv s0 story).2).map Prod.fst = [3, 2] ∧
    handedIn .acked .application (run quietEnv s0 story).2 = [.other 3] ∧
    handedIn .lost .application (run quietEnv s0 story).2 = [.other 0, .other 1] ∧
    spuriousIn .application (run quietEnv s0 story).2 = [0, 1] := by
  refine ⟨?_, ?_, ?_, ?_, ?_, ?_⟩
  · unfold Ascending story; decide +kernel
  · decide +kernel
  · decide +kernel
  · decide +kernel
  · decide +kernel
  · decide +kernel

/-- A probe repeats a frame of an open packet but not its DATAGRAM. -/
example :
    let os : List Op := [.send .application ⟨0, [.dgram 7, .other 8], 1000, true, true, true, false⟩ done 5, .timeout done 1000000000, .nextLost .application]
    handedIn .pto .application (run quietEnv s0 os).2 = [.other 8] := by decide +kernel

/-- A packet declared lost and forgotten by the next ACK: its own ACK, one later, is not
recognised. -/
theorem spurious_false : ∃ os : List Op, Ascending os ∧ (run quietEnv s0 os).1.failed = false ∧
    (0 ∈ (lostIn .application (run quietEnv s0 os).2).map Prod.fst) ∧
    (∃ rs delay st now, os.getLast? = some (.ack .application rs delay st now none) ∧ (rs.any fun r => decide (r.1 ≤ 0 ∧ 0 < r.2)) = true) ∧
    spuriousIn .application (run quietEnv s0 os).2 = [] ∧ (run quietEnv s0 os).1.spuriousCount = 0 := by
  refine ⟨[.send .application (data 0 1000) done 5, .send .application (data 1 1000) done 5, .send .application (data 2 1000) done 5,
    .send .application (data 3 1000) done 5, .ack .application [(3, 4)] 0 done 100 none, .ack .application [(1, 4)] 0 done 200 none,
    .ack .application [(0, 4)] 0 done 300 none], ?_, ?_, ?_, ⟨[(0, 4)], 0, done, 300, (by decide +kernel), (by decide +kernel)⟩, ?_, ?_⟩
  · unfold Ascending; decide +kernel
  · decide +kernel
  · decide +kernel
  · decide +kernel
  · decide +kernel

end Verif.Props.C131
