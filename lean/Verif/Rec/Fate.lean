import Verif.Rec.Account

/-! Which packets have their fate decided by a call. -/

namespace Verif.Rec

variable {σ : Type}

/-- Number and frames of the packets whose fate is open. -/
def liveOf (l : List Sent) : List (Nat × List Nat) := (l.filter Sent.live).map fun p => (p.pn, p.frames)

theorem mem_liveOf {l : List Sent} {x : Nat × List Nat} : x ∈ liveOf l ↔ ∃ p ∈ l, p.live = true ∧ (p.pn, p.frames) = x := by
  unfold liveOf
  rw [List.mem_map]
  constructor
  · rintro ⟨p, hp, he⟩; exact ⟨p, (List.mem_filter.1 hp).1, (List.mem_filter.1 hp).2, he⟩
  · rintro ⟨p, hp, hl, he⟩; exact ⟨p, List.mem_filter.2 ⟨hp, hl⟩, he⟩

theorem liveOf_cons (p : Sent) (l : List Sent) :
    liveOf (p :: l) = if p.live = true then (p.pn, p.frames) :: liveOf l else liveOf l := by
  unfold liveOf
  rw [List.filter_cons]
  split <;> simp

/-- The packets `G` are decided when `l` becomes `m`. -/
structure Decide (l : List Sent) (G : List (Nat × List Nat)) (m : List Sent) : Prop where
  sub : ∀ g ∈ G, g ∈ liveOf l
  nodup : (G.map Prod.fst).Nodup
  keep : ∀ y ∈ liveOf m, y ∈ liveOf l
  gone : ∀ y ∈ liveOf m, y.1 ∉ G.map Prod.fst

theorem Decide.refl (l : List Sent) : Decide l [] l := ⟨(by simp), List.nodup_nil, fun _ h => h, (by simp)⟩

theorem Decide.trans {l m n : List Sent} {G H : List (Nat × List Nat)} (h1 : Decide l G m) (h2 : Decide m H n) : Decide l (G ++ H) n := by
  refine ⟨?_, ?_, fun y hy => h1.keep y (h2.keep y hy), ?_⟩
  · intro g hg
    rcases List.mem_append.1 hg with hg | hg
    · exact h1.sub g hg
    · exact h1.keep g (h2.sub g hg)
  · rw [List.map_append, List.nodup_append]
    refine ⟨h1.nodup, h2.nodup, ?_⟩
    intro a ha b hb hab
    subst hab
    obtain ⟨y, hy, he⟩ := List.mem_map.1 hb
    have := h1.gone y (h2.sub y hy)
    rw [he] at this
    exact this ha
  · intro y hy hmem
    rw [List.map_append] at hmem
    rcases List.mem_append.1 hmem with hm | hm
    · exact h1.gone y (h2.keep y hy) hm
    · exact h2.gone y hy hm

/-- A suffix decides nothing. -/
theorem Decide.drain (t : Nat) (l : List Sent) : Decide l [] (drain t l) := by
  refine ⟨by simp, List.nodup_nil, ?_, by simp⟩
  intro y hy
  obtain ⟨p, hp, hl, he⟩ := mem_liveOf.1 hy
  exact mem_liveOf.2 ⟨p, drain_mem hp, hl, he⟩

/-- A packet in front whose fate was decided before. -/
theorem Decide.cons_dead {l m : List Sent} {G : List (Nat × List Nat)} {p q : Sent} (hq : q.live = false) (h : Decide l G m) :
    Decide (p :: l) G (q :: m) := by
  have hkeep : ∀ y ∈ liveOf l, y ∈ liveOf (p :: l) := by
    intro y hy
    rw [liveOf_cons]
    split
    · exact List.mem_cons_of_mem _ hy
    · exact hy
  have hm : liveOf (q :: m) = liveOf m := by rw [liveOf_cons, if_neg (by rw [hq]; simp)]
  exact ⟨fun g hg => hkeep g (h.sub g hg), h.nodup, fun y hy => hkeep y (h.keep y (hm ▸ hy)), fun y hy => h.gone y (hm ▸ hy)⟩

/-- A packet in front that is not touched. -/
theorem Decide.cons_same {l m : List Sent} {G : List (Nat × List Nat)} {p : Sent} (hs : Sorted (p :: l)) (h : Decide l G m) :
    Decide (p :: l) G (p :: m) := by
  refine ⟨?_, h.nodup, ?_, ?_⟩
  · intro g hg
    rw [liveOf_cons]
    split
    · exact List.mem_cons_of_mem _ (h.sub g hg)
    · exact h.sub g hg
  · intro y hy
    rw [liveOf_cons] at hy ⊢
    split at hy
    · rename_i hl
      rw [if_pos hl]
      rcases List.mem_cons.1 hy with rfl | hy
      · exact List.mem_cons_self
      · exact List.mem_cons_of_mem _ (h.keep y hy)
    · rename_i hl
      rw [if_neg hl]; exact h.keep y hy
  · intro y hy hmem
    rw [liveOf_cons] at hy
    split at hy
    · rcases List.mem_cons.1 hy with rfl | hy
      · obtain ⟨g, hg, he⟩ := List.mem_map.1 hmem
        obtain ⟨r, hr, _, hre⟩ := mem_liveOf.1 (h.sub g hg)
        have := (List.pairwise_cons.1 hs).1 r hr
        subst hre
        simp only at he
        omega
      · exact h.gone y hy hmem
    · exact h.gone y hy hmem

/-- A packet in front whose fate is decided now. -/
theorem Decide.cons_new {l m : List Sent} {G : List (Nat × List Nat)} {p q : Sent} (hs : Sorted (p :: l)) (hp : p.live = true)
    (hq : q.live = false) (h : Decide l G m) : Decide (p :: l) ((p.pn, p.frames) :: G) (q :: m) := by
  have hm : liveOf (q :: m) = liveOf m := by rw [liveOf_cons, if_neg (by rw [hq]; simp)]
  have hl : liveOf (p :: l) = (p.pn, p.frames) :: liveOf l := by rw [liveOf_cons, if_pos hp]
  have hlt : ∀ y ∈ liveOf l, p.pn < y.1 := by
    intro y hy
    obtain ⟨r, hr, _, hre⟩ := mem_liveOf.1 hy
    have := (List.pairwise_cons.1 hs).1 r hr
    subst hre
    exact this
  refine ⟨?_, ?_, ?_, ?_⟩
  · intro g hg
    rw [hl]
    rcases List.mem_cons.1 hg with rfl | hg
    · exact List.mem_cons_self
    · exact List.mem_cons_of_mem _ (h.sub g hg)
  · rw [List.map_cons, List.nodup_cons]
    refine ⟨?_, h.nodup⟩
    intro hmem
    obtain ⟨g, hg, he⟩ := List.mem_map.1 hmem
    have := hlt g (h.sub g hg)
    simp only at he
    omega
  · intro y hy
    rw [hm] at hy
    rw [hl]
    exact List.mem_cons_of_mem _ (h.keep y hy)
  · intro y hy hmem
    rw [hm] at hy
    rw [List.map_cons] at hmem
    rcases List.mem_cons.1 hmem with he | hmem
    · have := hlt y (h.keep y hy)
      simp only at he
      omega
    · exact h.gone y hy hmem

/-- Number and frames of an acknowledged packet. -/
def Acked.key (a : Acked) : Nat × List Nat := (a.pn, a.frames)
/-- Number and frames of a packet. -/
def Sent.key (p : Sent) : Nat × List Nat := (p.pn, p.frames)

theorem ackPkt_decide (now largest : Nat) (a : AckAcc) (p : Sent) :
    (p.live = false ∧ (ackPkt now largest a p).2.live = false ∧ (ackPkt now largest a p).1.newly = a.newly ∧
      (ackPkt now largest a p).1.frames = a.frames) ∨
    (p.live = true ∧ (ackPkt now largest a p).2.live = false ∧
      (∃ k : Acked, k.key = (p.pn, p.frames) ∧ (ackPkt now largest a p).1.newly = a.newly ++ [k]) ∧
      (ackPkt now largest a p).1.frames = a.frames ++ p.frames) := by
  unfold ackPkt
  split
  · rename_i h
    have hl : p.live = false := by
      unfold Sent.live
      cases ht : p.timeAcked <;> simp_all
    exact Or.inl ⟨hl, hl, rfl, rfl⟩
  · rename_i h
    split
    · rename_i h2
      have hl : p.live = false := by
        unfold Sent.live
        cases ht : p.timeLost <;> simp_all
      exact Or.inl ⟨hl, by simp [Sent.live], rfl, rfl⟩
    · rename_i h2
      have hl : p.live = true := by
        unfold Sent.live
        cases ht : p.timeLost <;> cases ht2 : p.timeAcked <;> simp_all
      exact Or.inr ⟨hl, by simp [Sent.live], ⟨_, rfl, rfl⟩, rfl⟩

theorem ackRange_decide (now largest lo hi : Nat) : ∀ (l : List Sent) (a : AckAcc), Sorted l →
    ∃ m : List Acked, (ackRange now largest lo hi a l).1.newly = a.newly ++ m ∧
      (ackRange now largest lo hi a l).1.frames = a.frames ++ m.flatMap Acked.frames ∧
      Decide l (m.map Acked.key) (ackRange now largest lo hi a l).2
  | [], a, _ => ⟨[], by simp [ackRange], by simp [ackRange], Decide.refl _⟩
  | p :: l, a, hs => by
    have hs' : Sorted l := (List.pairwise_cons.1 hs).2
    unfold ackRange
    split
    · obtain ⟨m, h1, h2, h3⟩ := ackRange_decide now largest lo hi l a hs'
      exact ⟨m, h1, h2, h3.cons_same hs⟩
    · split
      · exact ⟨[], by simp, by simp, Decide.refl _⟩
      · obtain ⟨m, h1, h2, h3⟩ := ackRange_decide now largest lo hi l (ackPkt now largest a p).1 hs'
        rcases ackPkt_decide now largest a p with ⟨_, hq, hn, hf⟩ | ⟨hp, hq, ⟨k, hk, hn⟩, hf⟩
        · refine ⟨m, ?_, ?_, h3.cons_dead hq⟩
          · dsimp only; rw [h1, hn]
          · dsimp only; rw [h2, hf]
        · refine ⟨k :: m, ?_, ?_, ?_⟩
          · dsimp only; rw [h1, hn]; simp
          · dsimp only; rw [h2, hf]
            have : k.frames = p.frames := (Prod.mk.inj hk).2
            simp [this]
          · rw [List.map_cons, hk]; exact h3.cons_new hs hp hq

theorem ackRanges_decide (now largest : Nat) (skip : Option Nat) : ∀ (rs : List (Nat × Nat)) (l : List Sent) (a : AckAcc), Sorted l →
    ∃ m : List Acked, (ackRanges now largest skip rs a l).2.1.newly = a.newly ++ m ∧
      (ackRanges now largest skip rs a l).2.1.frames = a.frames ++ m.flatMap Acked.frames ∧
      Decide l (m.map Acked.key) (ackRanges now largest skip rs a l).2.2
  | [], l, a, _ => ⟨[], by simp [ackRanges], by simp [ackRanges], Decide.refl _⟩
  | r :: rs, l, a, hs => by
    unfold ackRanges
    split
    · exact ⟨[], by simp, by simp, Decide.refl _⟩
    · obtain ⟨m, h1, h2, h3⟩ := ackRange_decide now largest r.1 r.2 l a hs
      obtain ⟨n, h4, h5, h6⟩ := ackRanges_decide now largest skip rs (ackRange now largest r.1 r.2 a l).2 (ackRange now largest r.1 r.2 a l).1
        (sorted_of_static (ackRange_static ..) hs)
      refine ⟨m ++ n, ?_, ?_, ?_⟩
      · rw [h4, h1]; simp
      · rw [h5, h2]; simp
      · rw [List.map_append]; exact h3.trans h6

theorem acked_decide (now rtt : Nat) (skip : Option Nat) (rs : List (Nat × Nat)) {x : Space} (h : SpaceInv x) :
    Decide x.sent ((x.acked now rtt skip rs).2.1.newly.map Acked.key) (x.acked now rtt skip rs).2.2.sent ∧
    (x.acked now rtt skip rs).2.2.ackedFrames = x.ackedFrames ++ (x.acked now rtt skip rs).2.1.newly.flatMap Acked.frames ∧
    (x.acked now rtt skip rs).2.2.lostAck = x.lostAck ∧ (x.acked now rtt skip rs).2.2.largestAcked = x.largestAcked ∧
    (x.acked now rtt skip rs).2.2.lastEliciting = x.lastEliciting ∧ (x.acked now rtt skip rs).2.2.lossTime = x.lossTime := by
  obtain ⟨m, h1, h2, h3⟩ := ackRanges_decide now (Nat.max (x.largestAcked.getD 0) (lastOf rs)) skip rs x.sent
    ⟨x.inFlightCount, 0, 0, none, false, false, [], x.ackedFrames⟩ h.sorted
  rw [List.nil_append] at h1
  unfold Space.acked
  dsimp only
  split
  · dsimp only
    rw [h1]
    exact ⟨h3, h2, rfl, rfl, rfl, rfl⟩
  · dsimp only
    rw [h1]
    refine ⟨?_, h2, rfl, rfl, rfl, rfl⟩
    have := h3.trans (Decide.drain (now - rtt) _)
    rwa [List.append_nil] at this

theorem loseAcc_frames (a : LossAcc) (p : Sent) : (loseAcc a p).frames = a.frames ++ p.frames := by
  unfold loseAcc
  repeat' split
  all_goals rfl

theorem loseLoop_decide (d t now lg : Nat) : ∀ (l : List Sent) (a : LossAcc), Sorted l →
    ∃ m : List Sent, (loseLoop d t now lg a l).1.lost = a.lost ++ m ∧
      (loseLoop d t now lg a l).1.frames = a.frames ++ m.flatMap Sent.frames ∧
      Decide l (m.map Sent.key) (loseLoop d t now lg a l).2
  | [], a, _ => ⟨[], by simp [loseLoop], by simp [loseLoop], Decide.refl _⟩
  | p :: l, a, hs => by
    have hs' : Sorted l := (List.pairwise_cons.1 hs).2
    unfold loseLoop
    split
    · exact ⟨[], by simp, by simp, Decide.refl _⟩
    · split
      · obtain ⟨m, h1, h2, h3⟩ := loseLoop_decide d t now lg l a hs'
        exact ⟨m, h1, h2, h3.cons_same hs⟩
      · rename_i hl
        split
        · obtain ⟨m, h1, h2, h3⟩ := loseLoop_decide d t now lg l (loseAcc a p) hs'
          refine ⟨p :: m, ?_, ?_, ?_⟩
          · dsimp only; rw [h1, loseAcc_lost]; simp
          · dsimp only; rw [h2, loseAcc_frames]; simp
          · exact h3.cons_new hs (by simpa using hl) (by simp [Sent.live])
        · exact ⟨[], by simp, by simp, Decide.refl _⟩

theorem lose_decide (d t now : Nat) {x : Space} (h : SpaceInv x) :
    Decide x.sent ((x.lose d t now).1.lost.map Sent.key) (x.lose d t now).2.sent ∧
    (x.lose d t now).2.lostAck = x.lostAck ++ (x.lose d t now).1.lost.flatMap Sent.frames ∧
    (x.lose d t now).2.ackedFrames = x.ackedFrames ∧ (x.lose d t now).2.largestAcked = x.largestAcked := by
  obtain ⟨m, h1, h2, h3⟩ := loseLoop_decide (Nat.max d granularity) t now (x.largestAcked.getD 0) x.sent
    ⟨x.inFlightCount, 0, 0, 0, none, none, x.lostAck, []⟩ h.sorted
  unfold Space.lose
  dsimp only at h1 h2 h3 ⊢
  rw [h1]
  exact ⟨h3, h2, rfl, rfl⟩

/-- The tests a lost packet passed. -/
theorem lose_tests (d t now : Nat) (x : Space) (p : Sent) (hp : p ∈ (x.lose d t now).1.lost) :
    p ∈ x.sent ∧ p.live = true ∧ p.pn ≤ x.largestAcked.getD 0 ∧
    (p.timeSent ≤ now - Nat.max d granularity ∨ x.largestAcked.getD 0 ≥ p.pn + t) := by
  obtain ⟨m, h1, h2, h3⟩ := loseLoop_lost (Nat.max d granularity) t now (x.largestAcked.getD 0) x.sent
    ⟨x.inFlightCount, 0, 0, 0, none, none, x.lostAck, []⟩
  have hp' : p ∈ m := by
    have : p ∈ (loseLoop (Nat.max d granularity) t now (x.largestAcked.getD 0) ⟨x.inFlightCount, 0, 0, 0, none, none, x.lostAck, []⟩
      x.sent).1.lost := hp
    rw [h1] at this
    simpa using this
  obtain ⟨h4, h5, h6⟩ := h3 p hp'
  exact ⟨h2.subset hp', h4, h5, by simpa [isLost] using h6⟩

/-- Loss detection in a state. -/
theorem detectLost_decide (en : Env σ) {s : State σ} (h : StateInv s) (e : Epoch) (now : Nat) :
    Decide (s.get e).sent ((s.detectLost en e now).1.lost.map Sent.key) ((s.detectLost en e now).2.get e).sent := by
  rw [detectLost_get, if_pos rfl]
  dsimp only
  have := (lose_decide (s.lossDelay en) s.pktThresh now (h e)).1.trans (Decide.drain (now - s.rtt.smoothed) _)
  rw [List.append_nil] at this
  exact this

theorem detectLost_queues (en : Env σ) {s : State σ} (h : StateInv s) (e : Epoch) (now : Nat) :
    ((s.detectLost en e now).2.get e).lostAck = (s.get e).lostAck ++ (s.detectLost en e now).1.lost.flatMap Sent.frames ∧
    ((s.detectLost en e now).2.get e).ackedFrames = (s.get e).ackedFrames ∧
    ((s.detectLost en e now).2.get e).largestAcked = (s.get e).largestAcked := by
  rw [detectLost_get, if_pos rfl]
  exact (lose_decide (s.lossDelay en) s.pktThresh now (h e)).2

end Verif.Rec
