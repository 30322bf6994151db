import Verif.GRec.Lemmas

/-! What each call does to the open packets, the bytes in flight, the queues and the log. -/

namespace Verif.GRec

open Verif.Rec (Epoch Status Rtt Bif optLt pow2 idleSpace hitsSkip lastOf granularity initialPacketThreshold maxPacketThreshold maxPtoProbes)

variable {σ : Type}

/-! ### Fields -/

theorem get_set_same (s : State σ) (e : Epoch) (x : Space) : (s.set e x).get e = x := by cases e <;> rfl
theorem get_set_other (s : State σ) {e e' : Epoch} (x : Space) (h : e' ≠ e) : (s.set e x).get e' = s.get e' := by
  cases e <;> cases e' <;> first | rfl | exact absurd rfl h
theorem get_congr {s t : State σ} (h1 : s.initial = t.initial) (h2 : s.handshake = t.handshake) (h3 : s.application = t.application)
    (e : Epoch) : s.get e = t.get e := by cases e <;> assumption

theorem set_fields (s : State σ) (e : Epoch) (x : Space) :
    (s.set e x).flight = s.flight ∧ (s.set e x).failed = s.failed ∧ (s.set e x).log = s.log ∧ (s.set e x).rtt = s.rtt ∧
    (s.set e x).thresh = s.thresh ∧ (s.set e x).cc = s.cc ∧ (s.set e x).lostCount = s.lostCount ∧ (s.set e x).ptoCount = s.ptoCount ∧
    (s.set e x).spuriousCount = s.spuriousCount := by
  cases e <;> exact ⟨rfl, rfl, rfl, rfl, rfl, rfl, rfl, rfl, rfl⟩

theorem neuter_fields (en : Env σ) : ∀ (l : List Nat) (s : State σ),
    (∀ e, (s.neuter en l).get e = s.get e) ∧ (s.neuter en l).flight = s.flight ∧ (s.neuter en l).failed = s.failed ∧
    (s.neuter en l).log = s.log ++ l.map Told.neutered ∧ (s.neuter en l).rtt = s.rtt ∧ (s.neuter en l).thresh = s.thresh ∧
    (s.neuter en l).lostCount = s.lostCount ∧ (s.neuter en l).ptoCount = s.ptoCount ∧
    (s.neuter en l).spuriousCount = s.spuriousCount
  | [], s => ⟨fun _ => rfl, rfl, rfl, (by simp [State.neuter]), rfl, rfl, rfl, rfl, rfl⟩
  | pn :: l, s => by
    obtain ⟨h1, h2, h3, h4, h5, h6, h7, h8, h9⟩ := neuter_fields en l (s.tell en (.neutered pn))
    refine ⟨fun e => (h1 e).trans (get_congr rfl rfl rfl e), h2, h3, ?_, h5, h6, h7, h8, h9⟩
    show (State.neuter en (s.tell en (.neutered pn)) l).log = _
    rw [h4]
    simp [State.tell]

theorem setTimer_get (s : State σ) (st : Status) (now : Nat) (e : Epoch) : (s.setTimer st now).get e = s.get e :=
  get_congr rfl rfl rfl e

theorem sub_bytes (b : Bif) (d now : Nat) : (b.sub d now).bytes = b.bytes - d := by
  unfold Bif.sub Bif.updateDuration
  split
  · rfl
  · split <;> rfl

theorem add_bytes (b : Bif) (d now : Nat) : (b.add d now).bytes = b.bytes + d := by
  unfold Bif.add Bif.updateDuration
  split
  · next h => omega
  · split
    · split
      · rfl
      · split <;> rfl
    · rfl

/-! ### One space -/

/-- The open packets of a space. -/
def Space.live (x : Space) : List (Nat × Info) := openOf x.sent

/-- What always holds of a space. -/
structure SpaceInv (x : Space) : Prop where
  sorted : Sorted x.sent
  count : x.inFlightCount = cnt x.live

/-- `acked` of a space. -/
theorem acked_spec (skip : Option Nat) (rs : List (Nat × Nat)) {x : Space} (h : SpaceInv x) :
    SpaceInv (x.acked skip rs).2.2 ∧
    x.live.Perm ((x.acked skip rs).2.2.live ++ (x.acked skip rs).2.1.newly) ∧
    (x.acked skip rs).2.2.live.Sublist x.live ∧
    (x.acked skip rs).2.1.bytes = wt (x.acked skip rs).2.1.newly ∧
    (x.acked skip rs).2.2.ackedFrames = x.ackedFrames ++ framesOf (x.acked skip rs).2.1.newly ∧
    (x.acked skip rs).2.2.lostAck = x.lostAck ∧ (x.acked skip rs).2.2.lostPto = x.lostPto ∧
    (∀ p ∈ (x.acked skip rs).2.1.newly, ∃ r ∈ rs, inR r.1 r.2 p.1 = true) ∧
    ((x.acked skip rs).1 = false → ∀ p ∈ (x.acked skip rs).2.2.live, ∀ r ∈ rs, inR r.1 r.2 p.1 = false) ∧
    (∃ L, (lostOf x.sent).Perm (L ++ (x.acked skip rs).2.1.spurious) ∧ (lostOf (x.acked skip rs).2.2.sent).Sublist L) ∧
    (∀ n ∈ (x.acked skip rs).2.1.spurious, ∃ r ∈ rs, inR r.1 r.2 n = true) ∧
    (x.acked skip rs).2.2.largestAcked = x.largestAcked ∧
    ((x.acked skip rs).2.2.sent.map Pk.pn).Sublist (x.sent.map Pk.pn) ∧
    (x.acked skip rs).2.1.eliciting = ((x.acked skip rs).2.1.newly.any fun p => p.2.ackEliciting) := by
  unfold Space.acked
  dsimp only
  obtain ⟨A, S, d, p, sb, q, m, ha, hS, hok⟩ := ackRanges_spec (Nat.max (x.largestAcked.getD 0) (lastOf rs)) skip rs
    ⟨x.inFlightCount, 0, [], none, false, [], x.ackedFrames⟩ x.sent h.sorted
  generalize ackRanges (Nat.max (x.largestAcked.getD 0) (lastOf rs)) skip rs
    ⟨x.inFlightCount, 0, [], none, false, [], x.ackedFrames⟩ x.sent = r at *
  have hn : r.2.1.newly = A := by rw [d.newly]; rfl
  have hs : r.2.1.spurious = S := by rw [d.spurious]; rfl
  have hc : r.2.1.count = cnt (openOf r.2.2) := by
    have := cnt_perm p
    rw [cnt_append] at this
    rw [d.count]
    show x.inFlightCount - cnt A = _
    rw [h.count]
    show cnt (openOf x.sent) - _ = _
    omega
  have hsort : Sorted r.2.2 := h.sorted.of_map m
  have hb : r.2.1.bytes = wt r.2.1.newly := by rw [d.bytes, hn]; show 0 + _ = _; omega
  have hel : r.2.1.eliciting = (r.2.1.newly.any fun p => p.2.ackEliciting) := by
    rw [d.eliciting, hn]; simp
  split
  · refine ⟨⟨hsort, hc⟩, ?_, sb, hb, ?_, rfl, rfl, ?_, ?_, ⟨_, ?_, List.Sublist.refl _⟩, ?_, rfl, ?_, hel⟩
    · rw [hn]; exact p
    · dsimp only; rw [d.frames, hn]
    · rw [hn]; exact ha
    · intro hc; exact absurd hc (by simp)
    · rw [hs]; exact q
    · rw [hs]; exact hS
    · dsimp only; rw [m]; exact List.Sublist.refl _
  · next hf =>
    refine ⟨⟨?_, ?_⟩, ?_, ?_, hb, ?_, rfl, rfl, ?_, ?_, ⟨_, ?_, lostOf_sub (drain_sub _)⟩, ?_, rfl, ?_, hel⟩
    · exact hsort.sublist (drain_sub _)
    · show r.2.1.count = cnt (openOf (drain r.2.2))
      rw [openOf_drain]; exact hc
    · show x.live.Perm (openOf (drain r.2.2) ++ _)
      rw [openOf_drain, hn]; exact p
    · show (openOf (drain r.2.2)).Sublist x.live
      rw [openOf_drain]; exact sb
    · dsimp only; rw [d.frames, hn]
    · rw [hn]; exact ha
    · intro _
      show ∀ p ∈ openOf (drain r.2.2), _
      rw [openOf_drain]
      exact (hok (by simpa using hf)).1
    · rw [hs]; exact q
    · rw [hs]; exact hS
    · dsimp only
      rw [← m]
      exact (drain_sub _).map _

/-- The packets a loss detection declares lost. -/
def Space.losing (x : Space) (delay : Nat) (thresh : Option Nat) (now : Nat) : List (Nat × Info) :=
  x.live.takeWhile (lostTest delay thresh now (x.largestAcked.getD 0))

/-- `lose` of a space. -/
theorem lose_spec (delay : Nat) (thresh : Option Nat) (now : Nat) {x : Space} (h : SpaceInv x) :
    SpaceInv (x.lose delay thresh now).2 ∧
    x.live = (x.lose delay thresh now).1.lost ++ (x.lose delay thresh now).2.live ∧
    (x.lose delay thresh now).1.lost = x.losing delay thresh now ∧
    (x.lose delay thresh now).1.bytes + (x.lose delay thresh now).1.probeBytes = wt (x.lose delay thresh now).1.lost ∧
    (x.lose delay thresh now).2.lostAck = x.lostAck ++ framesOf (x.lose delay thresh now).1.lost ∧
    (x.lose delay thresh now).1.probes = ((x.lose delay thresh now).1.lost.filter quietLoss).map Prod.fst ∧
    (x.lose delay thresh now).1.newly = ((x.lose delay thresh now).1.lost.filter fun p => !quietLoss p).map (fun p => (p.1, p.2.size)) ∧
    (x.lose delay thresh now).2.lossTime = nextLoss delay (x.largestAcked.getD 0) (x.lose delay thresh now).2.live ∧
    (x.lose delay thresh now).2.ackedFrames = x.ackedFrames ∧ (x.lose delay thresh now).2.lostPto = x.lostPto ∧
    (x.lose delay thresh now).2.largestAcked = x.largestAcked ∧
    (x.lose delay thresh now).2.sent.map Pk.pn = x.sent.map Pk.pn ∧
    (x.lose delay thresh now).1.bytes = wt ((x.lose delay thresh now).1.lost.filter fun p => !quietLoss p) ∧
    (∀ n ∈ lostOf (x.lose delay thresh now).2.sent, n ∈ lostOf x.sent ∨ n ∈ (x.lose delay thresh now).1.lost.map Prod.fst) ∧
    (∀ p ∈ (x.lose delay thresh now).2.live.head?, lostTest delay thresh now (x.largestAcked.getD 0) p = false) := by
  obtain ⟨i1, i2, i3, i4, i5⟩ := loseLoop_spec delay thresh now (x.largestAcked.getD 0) x.sent
    ⟨x.inFlightCount, 0, 0, [], [], none, x.lostAck, []⟩ h.sorted
  unfold Space.lose
  dsimp only [Space.live, Space.losing]
  generalize loseLoop delay thresh now (x.largestAcked.getD 0) ⟨x.inFlightCount, 0, 0, [], [], none, x.lostAck, []⟩ x.sent = r at *
  have hl : r.1.lost = (openOf x.sent).takeWhile (lostTest delay thresh now (x.largestAcked.getD 0)) := by rw [i1.lost]; rfl
  have hopen : openOf x.sent = r.1.lost ++ openOf r.2 := by rw [hl, i2, List.takeWhile_append_dropWhile]
  refine ⟨⟨h.sorted.of_map i4, ?_⟩, hopen, hl, ?_, ?_, ?_, ?_, ?_, rfl, rfl, rfl, i4, ?_, ?_, ?_⟩
  · show r.1.count = cnt (openOf r.2)
    rw [i1.count, ← hl]
    show x.inFlightCount - _ = _
    rw [h.count]
    show cnt (openOf x.sent) - _ = _
    rw [hopen, cnt_append]; omega
  · rw [i1.bytes, ← hl]; show 0 + 0 + _ = _; omega
  · rw [i1.frames, ← hl]
  · rw [i1.probes, ← hl]; rfl
  · rw [i1.newly, ← hl]; rfl
  · rw [i3 rfl, i2]
  · rw [i1.lostBytes, ← hl]; show 0 + _ = _; omega
  · rw [hl]; exact i5
  · intro p hp
    rw [i2] at hp
    have := List.head?_dropWhile_not (lostTest delay thresh now (x.largestAcked.getD 0)) (openOf x.sent)
    rw [show (List.dropWhile (lostTest delay thresh now (x.largestAcked.getD 0)) (openOf x.sent)).head? = some p from hp] at this
    simpa using this

/-! ### Loss detection on a path -/

/-- What `detectLost` does. -/
theorem detectLost_spec (en : Env σ) (s : State σ) (e : Epoch) (now : Nat) :
    (s.detectLost en e now).1 = ((s.get e).lose (s.lossDelay en) s.thresh.pkt now).1 ∧
    (∀ e', (s.detectLost en e now).2.get e' =
      if e' = e then ((s.get e).lose (s.lossDelay en) s.thresh.pkt now).2 else s.get e') ∧
    (s.detectLost en e now).2.flight = s.flight.sub ((s.detectLost en e now).1.bytes + (s.detectLost en e now).1.probeBytes) now ∧
    (s.detectLost en e now).2.failed = s.failed ∧
    (s.detectLost en e now).2.log = s.log ++ (s.detectLost en e now).1.probes.map Told.neutered ∧
    (s.detectLost en e now).2.rtt = s.rtt ∧ (s.detectLost en e now).2.thresh = s.thresh ∧
    (s.detectLost en e now).2.lostCount = s.lostCount ∧ (s.detectLost en e now).2.ptoCount = s.ptoCount ∧
    (s.detectLost en e now).2.spuriousCount = s.spuriousCount := by
  unfold State.detectLost
  dsimp only
  generalize (s.get e).lose (s.lossDelay en) s.thresh.pkt now = r
  obtain ⟨h1, h2, h3, h4, h5, h6, h7, h8, h9⟩ := neuter_fields en r.1.probes
    { s.set e r.2 with flight := s.flight.sub (r.1.bytes + r.1.probeBytes) now }
  obtain ⟨f1, f2, f3, f4, f5, f6, f7, f8, f9⟩ := set_fields s e r.2
  refine ⟨rfl, ?_, h2, h3.trans f2, ?_, h5.trans f4, h6.trans f5, h7.trans f7, h8.trans f8, h9.trans f9⟩
  · intro e'
    rw [h1]
    split
    · next he => subst he; exact (get_congr rfl rfl rfl e').trans (get_set_same s e' r.2)
    · next he => exact (get_congr rfl rfl rfl e').trans (get_set_other s r.2 he)
  · rw [h4]
    show (s.set e r.2).log ++ _ = _
    rw [f3]

end Verif.GRec
