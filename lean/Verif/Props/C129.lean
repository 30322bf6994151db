import Verif.Small.Notices

/-! # C129 — STREAMS_BLOCKED and HANDSHAKE_DONE are repeated until they arrive -/

namespace Verif.Props.C129
open Verif.Small.Notices

/-! ## STREAMS_BLOCKED -/

/-- The limit on streams after a history: the highest one granted. -/
def limit (ops : List BlkOp) : Nat := ops.foldl (fun n op => match op with | .granted m => max n m | _ => n) 0

/-- The limits in the frames sent. -/
def told (ops : List BlkOp) : List Nat := (({} : Blk).run ops).2.filterMap id

/-- A state after a history. -/
def at' (ops : List BlkOp) : Blk := (({} : Blk).run ops).1

theorem snoc_ind {α : Type} {P : List α → Prop} (h0 : P []) (h1 : ∀ l a, P l → P (l ++ [a])) (l : List α) : P l := by
  rw [← l.reverse_reverse]
  induction l.reverse with
  | nil => exact h0
  | cons a t ih => rw [List.reverse_cons]; exact h1 _ _ ih

structure Inv (s : Blk) : Prop where
  at_le : ∀ l, s.blockedAt = some l → l ≤ s.limit
  last : s.blockedSent = none ∨ s.blockedSent = s.sent.getLast?
  le : ∀ x ∈ s.sent, ∃ l, s.blockedAt = some l ∧ x ≤ l

theorem optMax_limit {s : Blk} (h : Inv s) : optMax s.blockedAt (some s.limit) = some s.limit := by
  unfold optMax optLt
  cases hb : s.blockedAt with
  | none => simp
  | some l =>
    have := h.at_le l hb
    simp only
    split
    · rfl
    · next hx => simp only [decide_eq_true_eq] at hx; congr; omega

theorem inv_step {s : Blk} (h : Inv s) (op : BlkOp) : Inv (s.step op).1 := by
  cases op with
  | granted m => exact ⟨fun l hl => Nat.le_trans (h.at_le l hl) (Nat.le_max_left _ _), h.last, h.le⟩
  | refused =>
    show Inv s.refuse
    have e := optMax_limit h
    refine ⟨?_, h.last, ?_⟩
    · intro l hl; simp only [Blk.refuse, e, Option.some.injEq] at hl; simp only [Blk.refuse]; omega
    · intro x hx
      obtain ⟨l, h1, h2⟩ := h.le x hx
      exact ⟨s.limit, by simp only [Blk.refuse, e], Nat.le_trans h2 (h.at_le l h1)⟩
  | out fits =>
    show Inv (s.out fits).1
    unfold Blk.out
    split
    · split
      · next l hb =>
        split
        · refine ⟨fun l' hl => h.at_le l' hl, .inr (by simp), ?_⟩
          intro x hx
          simp only [List.mem_append, List.mem_singleton] at hx
          rcases hx with hx | hx
          · exact h.le x hx
          · exact ⟨l, hb, by omega⟩
        · exact h
      · exact h
    · exact h
  | lost i =>
    show Inv (s.lose i)
    unfold Blk.lose
    split
    · split
      · exact ⟨h.at_le, .inl rfl, h.le⟩
      · exact h
    · exact h

theorem inv_run {s : Blk} (h : Inv s) : ∀ ops, Inv (s.run ops).1 := by
  intro ops
  induction ops generalizing s with
  | nil => exact h
  | cons op ops ih => simp only [Blk.run]; exact ih (inv_step h op)

theorem inv_at (ops : List BlkOp) : Inv (at' ops) := inv_run ⟨by simp, .inl rfl, by simp⟩ ops

theorem run_limit (s : Blk) (ops : List BlkOp) :
    (s.run ops).1.limit = ops.foldl (fun n op => match op with | .granted m => max n m | _ => n) s.limit := by
  induction ops generalizing s with
  | nil => rfl
  | cons op ops ih =>
    simp only [Blk.run, List.foldl_cons]
    rw [ih]
    congr 1
    cases op with
    | granted m => rfl
    | refused => rfl
    | out fits =>
      show (s.out fits).1.limit = s.limit
      unfold Blk.out; repeat' split
      all_goals rfl
    | lost i =>
      show (s.lose i).limit = s.limit
      unfold Blk.lose; repeat' split
      all_goals rfl

theorem at_limit (ops : List BlkOp) : (at' ops).limit = limit ops := run_limit _ _

theorem run_sent (s : Blk) (ops : List BlkOp) : (s.run ops).1.sent = s.sent ++ (s.run ops).2.filterMap id := by
  induction ops generalizing s with
  | nil => simp [Blk.run]
  | cons op ops ih =>
    simp only [Blk.run]
    rw [ih]
    have : (s.step op).1.sent = s.sent ++ (s.step op).2.toList := by
      cases op with
      | granted m => simp [Blk.step]
      | refused => simp [Blk.step, Blk.refuse]
      | out fits =>
        show (s.out fits).1.sent = s.sent ++ (s.out fits).2.toList
        unfold Blk.out; repeat' split
        all_goals simp
      | lost i =>
        show (s.lose i).sent = s.sent ++ []
        unfold Blk.lose; repeat' split
        all_goals simp
    rw [this, List.append_assoc]
    congr 1
    cases (s.step op).2 <;> simp

theorem at_sent (ops : List BlkOp) : (at' ops).sent = told ops := by
  unfold at' told; rw [run_sent]; rfl

/-- A frame about at least the limit `l` is waiting to be sent. -/
def Waiting (s : Blk) (l : Nat) : Prop := s.pending = true ∧ ∃ l', s.blockedAt = some l' ∧ l ≤ l'

theorem waiting_step {s : Blk} {l : Nat} (hI : Inv s) (h : Waiting s l) (op : BlkOp) (hq : (s.step op).2 = none) : Waiting (s.step op).1 l := by
  obtain ⟨h1, l', h2, h3⟩ := h
  cases op with
  | granted m => exact ⟨h1, l', h2, h3⟩
  | refused =>
    have e := optMax_limit hI
    have := hI.at_le l' h2
    refine ⟨?_, s.limit, by simp only [Blk.step, Blk.refuse, e], by omega⟩
    unfold Blk.pending at h1 ⊢
    simp only [Blk.step, Blk.refuse, e]
    rw [h2] at h1
    cases hs : s.blockedSent with
    | none => rfl
    | some x =>
      rw [hs] at h1; simp only [optLt, decide_eq_true_eq] at h1 ⊢; omega
  | out fits =>
    have hq : (s.out fits).2 = none := hq
    show Waiting (s.out fits).1 l
    unfold Blk.out at hq ⊢
    rw [h1, h2] at hq ⊢
    cases fits
    · exact ⟨h1, l', h2, h3⟩
    · cases hq
  | lost i =>
    show Waiting (s.lose i) l
    unfold Blk.lose
    split
    · split
      · refine ⟨?_, l', h2, h3⟩
        unfold Blk.pending; simp only [h2]; rfl
      · exact ⟨h1, l', h2, h3⟩
    · exact ⟨h1, l', h2, h3⟩

theorem waiting_run {s : Blk} {l : Nat} (hI : Inv s) (h : Waiting s l) : ∀ ops, (s.run ops).2.filterMap id = [] → Waiting (s.run ops).1 l := by
  intro ops hq
  induction ops generalizing s with
  | nil => exact h
  | cons op ops ih =>
    simp only [Blk.run] at hq ⊢
    cases he : (s.step op).2 with
    | none =>
      rw [he] at hq
      exact ih (inv_step hI op) (waiting_step hI h op he) (by simpa using hq)
    | some x => rw [he] at hq; simp at hq

theorem waiting_out {s : Blk} {l : Nat} (h : Waiting s l) : ∃ l', (s.step (.out true)).2 = some l' ∧ l ≤ l' := by
  obtain ⟨h1, l', h2, h3⟩ := h
  refine ⟨l', ?_, h3⟩
  show (s.out true).2 = _
  unfold Blk.out
  rw [h1, h2]; rfl

/-- **C129**: when the application is refused a stream at a limit the peer has not been
told about, the next frame that fits tells it. -/
theorem refused_is_told (pre post : List BlkOp) (hn : limit pre ∉ told pre)
    (hq : told (pre ++ .refused :: post) = told pre) :
    ∃ l, ((at' (pre ++ .refused :: post)).step (.out true)).2 = some l ∧ limit pre ≤ l := by
  have hI := inv_at pre
  have hI2 : Inv (at' pre).refuse := inv_step hI .refused
  have e := optMax_limit hI
  have hw : Waiting (at' pre).refuse (limit pre) := by
    refine ⟨?_, (at' pre).limit, by simp only [Blk.refuse, e], by rw [at_limit]; exact Nat.le_refl _⟩
    unfold Blk.pending
    simp only [Blk.refuse, e]
    cases hs : (at' pre).blockedSent with
    | none => rfl
    | some x =>
      have hx : x ∈ (at' pre).sent := by
        rcases hI.last with h | h
        · rw [hs] at h; cases h
        · rw [hs] at h; exact List.mem_of_getLast? h.symm
      obtain ⟨l, h1, h2⟩ := hI.le x hx
      have h3 := hI.at_le l h1
      have h4 : x ≠ (at' pre).limit := by
        rintro rfl
        rw [at_sent, at_limit] at hx; exact hn hx
      simp only [optLt, decide_eq_true_eq]; omega
  have he : at' (pre ++ .refused :: post) = ((at' pre).refuse.run post).1 := by
    unfold at'; rw [Blk.run_append]; rfl
  rw [he]
  refine waiting_out (waiting_run hI2 hw post ?_)
  have h5 : told (pre ++ .refused :: post) = told pre ++ ((at' pre).refuse.run post).2.filterMap id := by
    unfold told; rw [Blk.run_append_ev, List.filterMap_append]; rfl
  rw [h5] at hq
  simpa using hq

/-- **C129**: when the most recent frame is lost, it is sent again (or one with a higher
limit). -/
theorem lost_is_told_again (pre post : List BlkOp) (i l : Nat) (hl : (told pre).getLast? = some l) (hi : (told pre)[i]? = some l)
    (hq : told (pre ++ .lost i :: post) = told pre) :
    ∃ l', ((at' (pre ++ .lost i :: post)).step (.out true)).2 = some l' ∧ l ≤ l' := by
  have hI := inv_at pre
  have hI2 : Inv ((at' pre).lose i) := inv_step hI (.lost i)
  obtain ⟨l', h1, h2⟩ := hI.le l (by rw [at_sent]; exact List.mem_of_getLast? hl)
  have hnone : ((at' pre).lose i).blockedSent = none ∧ ((at' pre).lose i).blockedAt = some l' := by
    unfold Blk.lose
    rw [at_sent, hi]
    simp only
    rcases hI.last with h | h
    · rw [h]; exact ⟨h, h1⟩
    · rw [at_sent, hl] at h
      rw [if_pos h]; exact ⟨rfl, h1⟩
  have hw : Waiting ((at' pre).lose i) l := by
    refine ⟨?_, l', hnone.2, h2⟩
    unfold Blk.pending; rw [hnone.1, hnone.2]; rfl
  have he : at' (pre ++ .lost i :: post) = (((at' pre).lose i).run post).1 := by
    unfold at'; rw [Blk.run_append]; rfl
  rw [he]
  refine waiting_out (waiting_run hI2 hw post ?_)
  have h5 : told (pre ++ .lost i :: post) = told pre ++ (((at' pre).lose i).run post).2.filterMap id := by
    unfold told; rw [Blk.run_append_ev, List.filterMap_append]; rfl
  rw [h5] at hq
  simpa using hq

/-- **C129**: a frame tells of a limit at which the application was refused a stream. -/
theorem told_is_true (ops : List BlkOp) (l : Nat) (h : ((at' ops).step (.out true)).2 = some l) :
    ∃ pre post, ops = pre ++ .refused :: post ∧ limit pre = l := by
  have key : ∀ ops, ∀ l, (at' ops).blockedAt = some l → ∃ pre post, ops = pre ++ .refused :: post ∧ limit pre = l := by
    refine snoc_ind ?_ ?_
    · intro l hl; cases hl
    · intro ops op ih l hl
      have he : at' (ops ++ [op]) = ((at' ops).step op).1 := by unfold at'; rw [Blk.run_append]; rfl
      rw [he] at hl
      have old : (at' ops).blockedAt = some l → ∃ pre post, ops ++ [op] = pre ++ .refused :: post ∧ limit pre = l := by
        intro h
        obtain ⟨pre, post, rfl, h2⟩ := ih l h
        exact ⟨pre, post ++ [op], by simp, h2⟩
      cases op with
      | granted m => exact old hl
      | refused =>
        simp only [Blk.step, Blk.refuse, optMax_limit (inv_at ops), Option.some.injEq] at hl
        exact ⟨ops, [], rfl, by rw [← at_limit]; exact hl⟩
      | out fits =>
        refine old ?_
        rw [← hl]
        show _ = ((at' ops).out fits).1.blockedAt
        unfold Blk.out; repeat' split
        all_goals rfl
      | lost i =>
        refine old ?_
        rw [← hl]
        show _ = ((at' ops).lose i).blockedAt
        unfold Blk.lose; repeat' split
        all_goals rfl
  refine key ops l ?_
  have h : ((at' ops).out true).2 = some l := h
  unfold Blk.out at h
  split at h
  · split at h
    · next hb => simp only [if_true, Option.some.injEq] at h; rw [hb, h]
    · cases h
  · cases h

/-- **C129**: the limits told never decrease. -/
theorem told_increasing (ops : List BlkOp) : (told ops).Pairwise (· ≤ ·) := by
  rw [← at_sent]
  refine snoc_ind (P := fun ops => (at' ops).sent.Pairwise (· ≤ ·)) List.Pairwise.nil ?_ ops
  intro ops op ih
  have he : at' (ops ++ [op]) = ((at' ops).step op).1 := by unfold at'; rw [Blk.run_append]; rfl
  rw [he]
  have hI := inv_at ops
  generalize at' ops = s at *
  cases op with
  | granted m => exact ih
  | refused => exact ih
  | out fits =>
    show (s.out fits).1.sent.Pairwise _
    unfold Blk.out
    split
    · split
      · next l hb =>
        split
        · refine List.pairwise_append.2 ⟨ih, by simp, ?_⟩
          intro a ha b hb'
          obtain ⟨l', h1, h2⟩ := hI.le a ha
          rw [hb] at h1; cases h1
          simp only [List.mem_singleton] at hb'; omega
        · exact ih
      · exact ih
    · exact ih
  | lost i =>
    show (s.lose i).sent.Pairwise _
    unfold Blk.lose; repeat' split
    all_goals exact ih

/-- **C129**: without a loss no limit is told twice. -/
theorem told_once (pre post : List BlkOp) (l : Nat) (h : ((at' pre).step (.out true)).2 = some l) (hl : limit pre = l)
    (hp : ∀ op ∈ post, op = .refused ∨ ∃ f, op = .out f) : told (pre ++ .out true :: post) = told pre ++ [l] := by
  have hs : ∃ s1, s1 = ((at' pre).step (.out true)).1 ∧ s1.blockedAt = some l ∧ s1.blockedSent = some l ∧ s1.limit = l := by
    refine ⟨_, rfl, ?_⟩
    have h' : ((at' pre).out true).2 = some l := h
    show ((at' pre).out true).1.blockedAt = _ ∧ ((at' pre).out true).1.blockedSent = _ ∧ ((at' pre).out true).1.limit = _
    unfold Blk.out at h' ⊢
    split at h'
    · next hpnd =>
      split at h'
      · next hb =>
        simp only [if_true, Option.some.injEq] at h'
        simp only [hpnd, if_true]
        rw [hb]
        exact ⟨by rw [← h'], by rw [← h'], by rw [at_limit]; exact hl⟩
      · cases h'
    · cases h'
  obtain ⟨s1, e1, b1, b2, b3⟩ := hs
  have key : ∀ (ops : List BlkOp) (s : Blk), s.blockedAt = some l → s.blockedSent = some l → s.limit = l →
      (∀ op ∈ ops, op = .refused ∨ ∃ f, op = .out f) → (s.run ops).2.filterMap id = [] := by
    intro ops
    induction ops with
    | nil => intros; rfl
    | cons op ops ih =>
      intro s h1 h2 h3 h4
      simp only [Blk.run]
      have hrest := fun o ho => h4 o (List.mem_cons_of_mem _ ho)
      rcases h4 op List.mem_cons_self with rfl | ⟨f, rfl⟩
      · have e : s.step .refused = (s, none) := by
          have : optMax s.blockedAt (some s.limit) = s.blockedAt := by rw [h1, h3]; simp [optMax, optLt]
          simp only [Blk.step, Blk.refuse, this]
        rw [e]; simpa using ih s h1 h2 h3 hrest
      · have e : s.step (.out f) = (s, none) := by
          show s.out f = _
          unfold Blk.out Blk.pending
          rw [h1, h2]; simp [optLt]
        rw [e]; simpa using ih s h1 h2 h3 hrest
  have h5 : told (pre ++ .out true :: post) = told pre ++ (l :: (s1.run post).2.filterMap id) := by
    unfold told; rw [Blk.run_append_ev, List.filterMap_append]
    congr 1
    show List.filterMap id ((at' pre).run (.out true :: post)).2 = _
    simp only [Blk.run, h, ← e1, List.filterMap_cons_some (f := id) (a := some l) rfl]
  rw [h5, key post s1 b1 b2 b3 hp]

/-- The claim that STREAMS_BLOCKED is only sent while the application is blocked, that
is, with the limit in force. -/
def OnlyWhileBlocked : Prop := ∀ (ops : List BlkOp) (l : Nat), ((at' ops).step (.out true)).2 = some l → limit ops = l

/-- **C129 fails** for this: a limit raised in the meantime is not noticed, neither
before the frame is first sent nor before it is repeated. -/
theorem stale_frame_is_sent : ¬ OnlyWhileBlocked := by
  intro h
  have := h [.granted 3, .refused, .out true, .granted 100, .lost 0] 3 (by decide)
  revert this; decide

/-- Refused twice at the limit 3, once at 5; the losses of both frames about 5 are
repaired, the loss of the one about 3 is not any more. -/
example : (({} : Blk).run [.granted 3, .refused, .out true, .refused, .out true, .granted 5, .refused, .out false, .out true,
    .lost 0, .out true, .lost 1, .out true, .lost 2, .out true]).2.filterMap id = [3, 5, 5, 5] := by decide

/-! ## HANDSHAKE_DONE -/

/-- Whether frames were sent, after a history of an endpoint. -/
def frames (srv : Bool) (ops : List DoneOp) : Nat := ((({ isServer := srv } : Done).run ops).2.filter id).length

def now (srv : Bool) (ops : List DoneOp) : Done := (({ isServer := srv } : Done).run ops).1

theorem step_count (s : Done) (op : DoneOp) : (s.step op).1.count = s.count + (s.step op).2.toNat ∧ (s.step op).1.isServer = s.isServer := by
  cases op with
  | complete => exact ⟨rfl, rfl⟩
  | out fits =>
    show (s.out fits).1.count = s.count + (s.out fits).2.toNat ∧ (s.out fits).1.isServer = _
    unfold Done.out; split <;> exact ⟨rfl, rfl⟩
  | acked i => simp only [Done.step]; split <;> exact ⟨rfl, rfl⟩
  | lost i => simp only [Done.step]; split <;> exact ⟨rfl, rfl⟩

theorem run_count (s : Done) (ops : List DoneOp) :
    (s.run ops).1.count = s.count + ((s.run ops).2.filter id).length ∧ (s.run ops).1.isServer = s.isServer := by
  induction ops generalizing s with
  | nil => exact ⟨rfl, rfl⟩
  | cons op ops ih =>
    simp only [Done.run]
    obtain ⟨h1, h2⟩ := step_count s op
    obtain ⟨h3, h4⟩ := ih (s.step op).1
    refine ⟨?_, h4.trans h2⟩
    rw [h3, h1]
    cases (s.step op).2 <;> simp <;> omega

theorem now_count (srv : Bool) (ops : List DoneOp) : (now srv ops).count = frames srv ops := by
  unfold now frames; rw [(run_count _ _).1]; simp

/-- A frame waits to be sent. -/
def Due (s : Done) : Prop := s.isServer = true ∧ s.completed = true ∧ s.sent = false ∧ s.acked = false

/-- An acknowledgement of a frame that was sent. -/
def Acks (n : Nat) : DoneOp → Prop
  | .acked i => i < n
  | _ => False

theorem due_run (ops : List DoneOp) : ∀ (s : Done), Due s → (∀ op ∈ ops, ¬ Acks s.count op) → (s.run ops).2.filter id = [] →
    Due (s.run ops).1 := by
  induction ops with
  | nil => intro s h _ _; exact h
  | cons op ops ih =>
    intro s h ha hq
    obtain ⟨h1, h2, h3, h4⟩ := h
    simp only [Done.run] at hq ⊢
    have hc := (step_count s op).1
    have hstep : (s.step op).2 = false → Due (s.step op).1 := by
      intro he
      cases op with
      | complete => exact ⟨h1, rfl, h3, h4⟩
      | out fits =>
        have he : (s.out fits).2 = false := he
        show Due (s.out fits).1
        unfold Done.out at he ⊢
        split
        · next hx => rw [if_pos hx] at he; cases he
        · exact ⟨h1, h2, h3, h4⟩
      | acked i =>
        have : ¬ i < s.count := ha _ List.mem_cons_self
        simp only [Done.step, if_neg this]; exact ⟨h1, h2, h3, h4⟩
      | lost i =>
        simp only [Done.step]; split <;> exact ⟨h1, h2, by first | rfl | exact h3, h4⟩
    cases he : (s.step op).2 with
    | true => rw [he] at hq; simp at hq
    | false =>
      rw [he] at hq hc
      refine ih _ (hstep he) ?_ (by simpa using hq)
      intro o ho
      rw [hc]
      exact ha o (List.mem_cons_of_mem _ ho)

theorem due_out {s : Done} (h : Due s) : (s.step (.out true)).2 = true := by
  obtain ⟨h1, h2, h3, h4⟩ := h
  simp [Done.step, Done.out, h1, h2, h3]

/-- What is known after a history in which no frame was acknowledged. -/
theorem unacked (srv : Bool) (ops : List DoneOp) (ha : ∀ pre op post, ops = pre ++ op :: post → ¬ Acks (frames srv pre) op) :
    (now srv ops).acked = false ∧ (frames srv ops ≠ 0 → (now srv ops).isServer = true ∧ (now srv ops).completed = true) ∧
      (frames srv ops = 0 → (now srv ops).sent = false) ∧ (DoneOp.complete ∈ ops → (now srv ops).completed = true) := by
  revert ha
  refine snoc_ind (P := fun ops => (∀ pre op post, ops = pre ++ op :: post → ¬ Acks (frames srv pre) op) →
    (now srv ops).acked = false ∧ (frames srv ops ≠ 0 → (now srv ops).isServer = true ∧ (now srv ops).completed = true) ∧
      (frames srv ops = 0 → (now srv ops).sent = false) ∧ (DoneOp.complete ∈ ops → (now srv ops).completed = true)) ?_ ?_ ops
  · exact fun _ => ⟨rfl, fun h => absurd rfl h, fun _ => rfl, fun h => by cases h⟩
  · intro ops op ih ha
    obtain ⟨i1, i2, i3, i4⟩ := ih (fun pre o post h => ha pre o (post ++ [op]) (by rw [h]; simp))
    have he : now srv (ops ++ [op]) = ((now srv ops).step op).1 := by unfold now; rw [Done.run_append]; rfl
    have hf : frames srv (ops ++ [op]) = frames srv ops + ((now srv ops).step op).2.toNat := by
      rw [← now_count, he, (step_count _ _).1, now_count]
    rw [he, hf]
    have hna := ha ops op [] rfl
    rw [← now_count] at *
    generalize now srv ops = s at *
    cases op with
    | complete => exact ⟨i1, fun h => ⟨(i2 h).1, rfl⟩, i3, fun _ => rfl⟩
    | out fits =>
      show (s.out fits).1.acked = false ∧ (s.count + (s.out fits).2.toNat ≠ 0 → (s.out fits).1.isServer = true ∧ (s.out fits).1.completed = true) ∧
        (s.count + (s.out fits).2.toNat = 0 → (s.out fits).1.sent = false) ∧ (_ → (s.out fits).1.completed = true)
      have i4' : DoneOp.complete ∈ ops ++ [DoneOp.out fits] → s.completed = true := by
        intro h; exact i4 (by simpa using h)
      unfold Done.out
      split
      · next hx =>
        simp only [Bool.and_eq_true] at hx
        exact ⟨i1, fun _ => ⟨hx.1.2, hx.1.1.1⟩, fun h => by simp at h, i4'⟩
      · exact ⟨i1, i2, i3, i4'⟩
    | acked i =>
      have : ¬ i < s.count := hna
      simp only [Done.step, if_neg this]
      exact ⟨i1, i2, i3, fun h => i4 (by simpa using h)⟩
    | lost i =>
      have i4' : DoneOp.complete ∈ ops ++ [DoneOp.lost i] → s.completed = true := by
        intro h; exact i4 (by simpa using h)
      simp only [Done.step]
      split
      · exact ⟨i1, i2, fun _ => rfl, i4'⟩
      · exact ⟨i1, i2, i3, i4'⟩

/-- **C129**: a server that has completed the handshake and sent no HANDSHAKE_DONE yet
sends it in the next packet with room. -/
theorem done_is_sent (ops : List DoneOp) (hc : .complete ∈ ops) (hn : frames true ops = 0) : ((now true ops).step (.out true)).2 = true := by
  have hz : ∀ pre post, ops = pre ++ post → frames true pre = 0 := by
    intro pre post h
    have : frames true ops = frames true pre + (((now true pre).run post).2.filter id).length := by
      unfold frames now; rw [h, Done.run_append_ev]; simp
    omega
  obtain ⟨h1, -, h3, h4⟩ := unacked true ops (by
    intro pre op post h
    rw [hz pre _ h]
    cases op <;> simp [Acks])
  exact due_out ⟨(run_count _ _).2, h4 hc, h3 hn, h1⟩

/-- **C129**: after a HANDSHAKE_DONE is lost, and none has ever been acknowledged, it is
sent again. -/
theorem done_is_repeated (srv : Bool) (pre post : List DoneOp) (i : Nat) (hi : i < frames srv pre)
    (ha : ∀ p op q, pre ++ .lost i :: post = p ++ op :: q → ¬ Acks (frames srv p) op)
    (hq : frames srv (pre ++ .lost i :: post) = frames srv pre) :
    ((now srv (pre ++ .lost i :: post)).step (.out true)).2 = true := by
  obtain ⟨h1, h2, -, -⟩ := unacked srv pre (fun p op q h => ha p op (q ++ .lost i :: post) (by rw [h]; simp))
  obtain ⟨h3, h4⟩ := h2 (by omega)
  have hcnt := now_count srv pre
  have hd : Due ((now srv pre).step (.lost i)).1 := by
    simp only [Done.step]
    rw [if_pos (by rw [hcnt, h1]; simp [hi])]
    exact ⟨h3, h4, rfl, h1⟩
  have he : now srv (pre ++ .lost i :: post) = (((now srv pre).step (.lost i)).1.run post).1 := by
    unfold now; rw [Done.run_append]; rfl
  have hf : frames srv (pre ++ .lost i :: post) = frames srv pre + ((((now srv pre).step (.lost i)).1.run post).2.filter id).length := by
    unfold frames now; rw [Done.run_append_ev]; simp [Done.run, Done.step]
  rw [he]
  have hnil : (((now srv pre).step (.lost i)).1.run post).2.filter id = [] := List.eq_nil_of_length_eq_zero (by omega)
  refine due_out (due_run post _ hd ?_ hnil)
  intro op ho
  obtain ⟨p, q, rfl⟩ := List.append_of_mem ho
  have := ha (pre ++ .lost i :: p) op q (by simp)
  have hc2 : frames srv (pre ++ .lost i :: p) = ((now srv pre).step (.lost i)).1.count := by
    have h5 : frames srv (pre ++ .lost i :: p) = frames srv pre + ((((now srv pre).step (.lost i)).1.run p).2.filter id).length := by
      unfold frames now; rw [Done.run_append_ev]; simp [Done.run, Done.step]
    have h6 : (((now srv pre).step (.lost i)).1.run p).2.filter id = [] := by
      rw [Done.run_append_ev, List.filter_append, List.append_eq_nil_iff] at hnil
      exact hnil.1
    rw [h5, h6, (step_count _ _).1, hcnt]; rfl
  rw [hc2] at this; exact this

/-- **C129**: once a HANDSHAKE_DONE is acknowledged none is sent any more. -/
theorem done_once_acked (srv : Bool) (pre post : List DoneOp) (i : Nat) (hi : i < frames srv pre) :
    frames srv (pre ++ .acked i :: post) = frames srv pre := by
  have hcnt := now_count srv pre
  have key : ∀ (ops : List DoneOp) (s : Done), s.sent = true → s.acked = true → (s.run ops).2.filter id = [] := by
    intro ops
    induction ops with
    | nil => intros; rfl
    | cons op ops ih =>
      intro s h1 h2
      simp only [Done.run]
      cases op with
      | complete => simpa [Done.step] using ih { s with completed := true } h1 h2
      | out fits =>
        have : s.step (.out fits) = (s, false) := by simp [Done.step, Done.out, h1]
        rw [this]; simpa using ih s h1 h2
      | acked j =>
        simp only [Done.step]
        split
        · simpa using ih _ rfl rfl
        · simpa using ih _ h1 h2
      | lost j => simpa [Done.step, h2] using ih _ h1 h2
  have hf : frames srv (pre ++ .acked i :: post) = frames srv pre + ((((now srv pre).step (.acked i)).1.run post).2.filter id).length := by
    unfold frames now; rw [Done.run_append_ev]; simp [Done.run, Done.step]
  rw [hf]
  have hs : ((now srv pre).step (.acked i)).1.sent = true ∧ ((now srv pre).step (.acked i)).1.acked = true := by
    simp only [Done.step]; rw [if_pos (by rw [hcnt]; exact hi)]; exact ⟨rfl, rfl⟩
  rw [key _ _ hs.1 hs.2]; rfl

/-- **C129**: a client sends none, and a server none before the handshake completes. -/
theorem done_only_by_server (srv : Bool) (ops : List DoneOp) (h : ((now srv ops).step (.out true)).2 = true) :
    srv = true ∧ .complete ∈ ops := by
  have hs : (now srv ops).isServer = srv := (run_count _ _).2
  have hc : (now srv ops).completed = true → .complete ∈ ops := by
    refine snoc_ind (P := fun ops => (now srv ops).completed = true → DoneOp.complete ∈ ops) ?_ ?_ ops
    · intro h; cases h
    · intro ops op ih h2
      have he : now srv (ops ++ [op]) = ((now srv ops).step op).1 := by unfold now; rw [Done.run_append]; rfl
      rw [he] at h2
      have old : (now srv ops).completed = true → DoneOp.complete ∈ ops ++ [op] := fun h => List.mem_append_left _ (ih h)
      cases op with
      | complete => simp
      | out fits =>
        have h2 : ((now srv ops).out fits).1.completed = true := h2
        unfold Done.out at h2; split at h2 <;> exact old h2
      | acked i => simp only [Done.step] at h2; split at h2 <;> exact old h2
      | lost i => simp only [Done.step] at h2; split at h2 <;> exact old h2
  have h : ((now srv ops).out true).2 = true := h
  unfold Done.out at h
  split at h
  · next hx =>
    simp only [Bool.and_eq_true] at hx
    exact ⟨hs ▸ hx.1.2, hc hx.1.1.1⟩
  · cases h

/-- Sent, lost, sent again; the first copy turns out to have arrived, so the loss of the
second does not matter. -/
example : (({ isServer := true } : Done).run [.out true, .complete, .out false, .out true, .out true, .lost 0, .out true, .acked 0,
    .lost 1, .out true]).2 = [false, false, false, true, false, false, true, false, false, false] := by decide

end Verif.Props.C129
