import Verif.H3.Once

/-! What is left to read when `poll` has nothing to report. -/

namespace Verif.H3
open Verif

variable {cf : Bool × Option Nat} {used : Nat → Bool} {log : Nat → List Out}

/-- There is nothing to read, or what there is is discarded, or the application has been told. -/
def Q (c : C) (id : Nat) : Prop :=
  (c.rx id).off = (c.rx id).all.length ∨ (c.cur id).state = .drain ∨ (c.cur id).state = .finished ∨ c.trig id = true

theorem Q.same {c c' : C} {id : Nat} (h : Same id c c') (ht : c'.trig id = c.trig id) (q : Q c id) : Q c' id := by
  unfold Q at *
  rw [h.rx, h.cur.state, ht]
  exact q

theorem closeWith_lerr {c : C} (hd : c.dead = false) (code : Nat) (e : Err) : (c.closeWith code e).2.localErr ≠ none := by
  unfold C.closeWith C.close
  rw [hd]
  cases h : c.localErr with
  | none => simp
  | some x => simp [h]

theorem fail_lerr {c : C} (hd : c.dead = false) (e : Err) : (c.fail e).2.localErr ≠ none := closeWith_lerr hd _ _

/-- Fewer bytes than there is room for are all the bytes. -/
theorem recv_short {r r' : Rx} {n : Nat} {bs : Bytes} {fin : Bool} (h : r.WF) (e : r.recv n = (.ok (bs, fin), r'))
    (hl : bs.length < n) : r'.off = r'.all.length := by
  obtain ⟨h1, h2, _⟩ := recv_ok h e
  have h3 := h1.off
  have h4 := h1.all
  have h5 := h.off
  have h6 := h1.wf.off
  have : bs.length = min n (r.all.length - r.off) := by rw [h2, List.length_take]; unfold Rx.avail; rw [List.length_drop]
  rw [h4] at h6 ⊢
  omega

theorem recv_done {r r' : Rx} {n : Nat} (h : r.WF) (e : r.recv n = (.error .done, r')) : r'.off = r'.all.length := by
  unfold Rx.recv at e
  split at e
  · cases e
  rename_i hg
  split at e
  · rename_i hr
    cases e
    have := h.off
    unfold Rx.readable at hr
    simp [hg] at hr
    omega
  split at e <;> cases e

theorem fillLoop_done {spare : Nat → Nat → Nat} : ∀ {k : Nat} {s s' : Strm} {r r' : Rx}, r.WF →
    Strm.fillLoop spare k s r = (.err .done, s', r') → r'.off = r'.all.length := by
  intro k
  induction k with
  | zero => intro s s' r r' _ h; cases h
  | succ k ih =>
    intro s s' r r' hw h
    unfold Strm.fillLoop at h
    split at h
    · rename_i bs fin r1 hr
      split at h
      · cases h
      split at h
      · rename_i hl
        split at h
        · cases h
        · cases h; exact recv_short hw hr hl
      split at h
      · cases h
      · exact ih (recv_ok hw hr).1.wf h
    · split at h <;> cases h
    · rename_i r1 hr
      cases h
      exact recv_done hw hr
    · rename_i e r1 h1 h2 hr
      cases h
      exact absurd rfl h2

theorem tryFill_done {spare : Nat → Nat → Nat} {s s' : Strm} {r r' : Rx} (hw : r.WF)
    (h : s.tryFill spare r = (.err .done, s', r')) : r'.off = r'.all.length := by
  unfold Strm.tryFill at h
  split at h
  · cases h
  · exact fillLoop_done hw h

theorem trySkip_done {s s' : Strm} {r r' : Rx} (hw : r.WF) (hle : s.off ≤ s.len)
    (h : s.trySkipFrame r = (.err .done, s', r')) : r'.off = r'.all.length := by
  have key : ∀ s', s.trySkipData r = (.err .done, s', r') → r'.off = r'.all.length := by
    intro s' h
    unfold Strm.trySkipData at h
    split at h
    · cases h
    rename_i hc
    have hc : ¬ s.off = s.len := by simpa [Strm.complete] using hc
    split at h
    · rename_i bs fin r1 hr
      split at h
      · cases h
      split at h
      · cases h
      · rename_i hne
        cases h
        have hb := (recv_ok hw hr).2.1
        have : bs.length ≤ s.len - s.off := by rw [hb, List.length_take]; omega
        have hne : ¬ s.off + bs.length = s.len := by simpa using hne
        exact recv_short hw hr (by omega)
    · split at h <;> cases h
    · rename_i r1 hr
      cases h
      exact recv_done hw hr
    · rename_i e r1 h1 h2 hr
      cases h
      exact absurd rfl h2
  unfold Strm.trySkipFrame at h
  split at h
  · cases h
  · exact key _ h

/-! ### An iteration -/

/-- If it ends with Done and the connection is not closed, the stream is quiet, or read to its end. -/
def DoneQ (id : Nat) (x : Step × C) : Prop := x.1 = .ret (.error .done) → x.2.localErr = none →
  Q x.2 id ∨ (x.2.rx id).finished = true

theorem doneQ_failed {id : Nat} {c : C} (hd : c.dead = false) (code : Nat) (e : Err) :
    DoneQ id (stepFailed (c.closeWith code e)) := fun _ h => absurd h (closeWith_lerr hd _ _)

theorem doneQ_filled {id : Nat} {c : C} {x : Fill × Strm × Rx} {k : Strm → C → Step × C} (hd : c.dead = false)
    (hx : x.1 = .err .done → x.2.2.off = x.2.2.all.length)
    (hk : ∀ s c1, c1.dead = false → DoneQ id (k s c1)) : DoneQ id (c.filled id x k) := by
  obtain ⟨f, s1, r1⟩ := x
  cases f with
  | ok => exact hk s1 _ hd
  | closedCritical => exact doneQ_failed (c := c.put id s1 r1) hd _ _
  | err e =>
    intro h _
    cases h
    left; left
    show ((upd c.rx id r1) id).off = ((upd c.rx id r1) id).all.length
    rw [upd_same]
    exact hx rfl

theorem doneQ_varint {id : Nat} {c : C} {s : Strm} {k : Nat → Strm → C → Step × C} (hd : c.dead = false)
    (hk : ∀ v s c1, c1.dead = false → DoneQ id (k v s c1)) : DoneQ id (c.varint id s k) := by
  unfold C.varint
  split
  · exact fun h => by cases h
  · exact hk _ _ _ hd

theorem doneQ_applied {id : Nat} {c : C} {x : Except Err Unit × Strm} {k : C → Step × C} (hd : c.dead = false)
    (hk : ∀ c1, c1.dead = false → DoneQ id (k c1)) : DoneQ id (c.applied id x k) := by
  obtain ⟨f, s1⟩ := x
  cases f with
  | error e => exact doneQ_failed (c := c.setStrm id s1) hd _ _
  | ok u => exact hk _ hd

theorem doneQ_again {id : Nat} {c : C} : DoneQ id (.again, c) := fun h => by cases h

theorem doneQ_open {id : Nat} {c : C} (hd : c.dead = false) (ty : Ty) : DoneQ id (c.openPeer id ty) := by
  have key : ∀ (old : Option Nat) (set : C → C), DoneQ id (c.openCritical id old set) := by
    intro old set
    unfold C.openCritical
    split
    · exact doneQ_failed hd _ _
    split
    · exact doneQ_failed hd _ _
    · exact doneQ_again
  cases ty with
  | control => exact key _ _
  | qpackEncoder => exact key _ _
  | qpackDecoder => exact key _ _
  | push => exact doneQ_failed hd _ _
  | unknown => exact doneQ_again
  | request => exact fun h => by cases h

theorem doneQ_qpack {id : Nat} {s : Strm} : ∀ {k : Nat} {c : C}, c.dead = false → (c.rx id).WF →
    DoneQ id (C.qpackLoop id s k c) := by
  intro k
  induction k with
  | zero => intro c _ _ h; cases h
  | succ k ih =>
    intro c hd hw
    have hdead : ∀ (c1 : C) (n : Nat), (c1.countQpack s n).dead = c1.dead ∧ (c1.countQpack s n).rx = c1.rx := by
      intro c1 n; unfold C.countQpack; split <;> exact ⟨rfl, rfl⟩
    unfold C.qpackLoop
    split
    · rename_i e r hr
      intro h _
      cases h
      left; left
      show ((upd c.rx id r) id).off = ((upd c.rx id r) id).all.length
      rw [upd_same]
      exact recv_done hw hr
    · rename_i bs fin r hr
      split
      · exact doneQ_failed (by rw [(hdead _ _).1]; exact hd) _ _
      · refine ih (by rw [(hdead _ _).1]; exact hd) ?_
        rw [(hdead _ _).2]
        show ((upd c.rx id r) id).WF
        rw [upd_same]
        exact (recv_ok hw hr).1.wf

theorem doneQ_after {id : Nat} {x : Res × C} : DoneQ id (C.afterFrame id x) := by
  unfold C.afterFrame
  split
  · split
    · rename_i hf
      exact fun _ _ => .inr hf
    · exact doneQ_again
  · rename_i r c h
    intro e
    simp only [Step.ret.injEq] at e
    subst e
    exact (h rfl).elim

theorem iter_doneQ {spare : Nat → Nat → Nat} {id : Nat} {c : C} {s : Strm} {out : List Out}
    (hd : c.dead = false) (hs : c.streams id = some s) (hl : Live c.limit id (c.peerStream id) s (c.rx id) out) :
    DoneQ id (C.iter spare true id c) := by
  have hcur := cur_some hs
  have hfill : (s.tryFill spare (c.rx id)).1 = .err .done →
      (s.tryFill spare (c.rx id)).2.2.off = (s.tryFill spare (c.rx id)).2.2.all.length := by
    intro h
    generalize hx : s.tryFill spare (c.rx id) = x at h
    obtain ⟨f, s1, r1⟩ := x
    cases h
    exact tryFill_done hl.wf hx
  unfold C.iter
  rw [hs]
  dsimp only
  split
  · exact doneQ_filled hd hfill fun s1 c1 hd1 => doneQ_varint hd1 fun v s2 c2 hd2 =>
      doneQ_applied hd2 fun c3 hd3 => doneQ_open hd3 _
  · exact doneQ_filled hd hfill fun s1 c1 hd1 => doneQ_varint hd1 fun v s2 c2 hd2 =>
      doneQ_applied hd2 fun c3 hd3 => doneQ_again
  · exact doneQ_filled hd hfill fun s1 c1 hd1 => doneQ_varint hd1 fun v s2 c2 hd2 =>
      doneQ_applied hd2 fun c3 hd3 => doneQ_again
  · exact doneQ_filled hd hfill fun s1 c1 hd1 => doneQ_varint hd1 fun v s2 c2 hd2 =>
      doneQ_applied hd2 fun c3 hd3 => doneQ_again
  · rw [if_neg (by decide)]
    refine doneQ_filled hd hfill fun s1 c1 hd1 => ?_
    split
    · exact doneQ_failed (c := c1.setStrm id _) hd1 _ _
    · exact doneQ_after
  · rename_i hst
    rw [if_neg (by decide)]
    split
    · rename_i ht
      intro _ _
      left; right; right; right
      show c.trig id = true
      unfold C.trig
      rw [hs]
      simp [hst, ht]
    · exact fun h => by cases h
  · exact doneQ_qpack hd hl.wf
  · rename_i hst
    refine doneQ_filled hd (fun h => ?_) fun s1 c1 hd1 => ?_
    · have hle : s.off ≤ s.len := by
        obtain ⟨k, _, m, _⟩ := hl.hist
        generalize (c.rx id).all.take k = pre at m
        cases m with
        | start _ h2 => rw [hst] at h2; cases h2
        | other _ h2 => rw [hst] at h2; rcases h2 with h2 | h2 <;> cases h2
        | ft _ h2 => rw [hst] at h2; cases h2
        | fl _ h2 => rw [hst] at h2; cases h2
        | fp _ h2 => rw [hst] at h2; cases h2
        | da _ h2 => rw [hst] at h2; cases h2
        | sk _ _ _ _ _ _ _ _ h9 => exact h9
      generalize hx : s.trySkipFrame (c.rx id) = x at h
      obtain ⟨f, s1, r1⟩ := x
      cases h
      exact trySkip_done hl.wf hle hx
    · split
      · rename_i hf
        exact fun _ _ => .inr hf
      · exact doneQ_again
  · rename_i hst
    have key : ∀ r x, DoneQ id (Step.ret x, c.setRx id r) := by
      intro r x _ _
      left; right; left
      show (c.cur id).state = _
      rw [hcur]; exact hst
    split <;> exact key _ _
  · rename_i hst
    intro _ _
    left; right; right; left
    show (c.cur id).state = _
    rw [hcur]; exact hst

theorem loop_doneQ {spare : Nat → Nat → Nat} {id : Nat} {out : List Out} : ∀ {k : Nat} {c c' : C} {s : Strm},
    c.dead = false → c.localErr = none → c.streams id = some s → Live c.limit id (c.peerStream id) s (c.rx id) out →
    C.loop spare true id k c = (.error .done, c') → c'.localErr = none → Q c' id ∨ (c'.rx id).finished = true := by
  intro k
  induction k with
  | zero => intro c c' s _ _ _ _ h; cases h
  | succ k ih =>
    intro c c' s hd hn hs hl h hn'
    unfold C.loop at h
    have hq := iter_doneQ (spare := spare) hd hs hl
    cases hi : C.iter spare true id c with
    | mk st c1 =>
    rw [hi] at h hq
    have hok := iter_ok hd (fun _ => hn) hs hl hi
    cases st with
    | ret r => cases h; exact hq rfl hn'
    | again =>
      dsimp only at h
      obtain ⟨g1, g2, g3, g4⟩ := hok
      have hlim : c1.limit = c.limit := by unfold C.limit; rw [g1.maxField]
      have hpe : c1.peerStream id = c.peerStream id := by unfold C.peerStream; rw [g1.isServer]
      have hsome := g1.some (by rw [hs]; simp)
      cases hs1 : c1.streams id with
      | none => exact absurd hs1 hsome
      | some s1 =>
        rw [cur_some hs1, ← hlim, ← hpe] at g2
        exact ih (by rw [g1.dead]; exact hd) (by rw [g3]; exact hn) hs1 g2 h hn'

theorem processStream_doneQ {spare : Nat → Nat → Nat} {id : Nat} {c c' : C} (hi : Inv cf c used log) (hu : used id = true)
    (hn : c.localErr = none) (h : c.processStream spare true id = (.error .done, c')) (hn' : c'.localErr = none) : Q c' id := by
  have hok := processStream_inv hi hu (fun _ => hn) (fun c => by cases c) (hi.notBroken hn hu) h
  have hwf : (c'.rx id).WF := by
    rcases hok.inv.notBroken hn' hu with o | o
    · exact o.wf
    · exact o.wf
  rcases hi.notBroken hn hu with o | o
  · unfold C.processStream at h
    obtain ⟨s, h1, h2⟩ := ensure_some c id
    obtain ⟨e1, e2, e3⟩ := ensure_eff c id
    have hlim : (c.ensure id).limit = c.limit := by unfold C.limit; rw [e1.maxField]
    have hpe : (c.ensure id).peerStream id = c.peerStream id := by unfold C.peerStream; rw [e1.isServer]
    rcases loop_doneQ (by rw [e1.dead]; exact hi.dead) (by rw [e3]; exact hn) h1
      (by rw [hlim, hpe, e2, h2]; exact o) h hn' with q | q
    · exact q
    · exact .inl (finished_off hwf q)
  · exact .inl (finished_off hwf (processStream_closed o h).2.1.fin)

/-! ### The end of streams -/

/-- The application has been told of the end of a bidirectional stream that has been read, or will be. -/
def T (c : C) (id : Nat) : Prop := (c.rx id).finished = true → isBidi id = true → (c.cur id).state = .finished

theorem T.same {c c' : C} {id : Nat} (h : Same id c c') (q : T c id) : T c' id := by
  unfold T at *
  rw [h.rx, h.cur.state]
  exact q

theorem processStream_some {spare : Nat → Nat → Nat} {polling : Bool} {id : Nat} {c : C} :
    (c.processStream spare polling id).2.streams id ≠ none := by
  unfold C.processStream
  refine (loop_mild (spare := spare) (polling := polling) (id := id)).some id ?_
  obtain ⟨s, h, _⟩ := ensure_some c id
  rw [h]; simp

theorem Match.bidi {limit id : Nat} {peer : Bool} {s : Strm} {bs : Bytes} {out : List Out}
    (m : Match limit id peer s bs out) (hb : isBidi id = true) : s.ty = some .request := by
  have key : ∀ hdr, Head id s hdr → s.ty = some .request := by
    intro hdr h
    unfold Head at h
    rw [if_pos hb] at h
    exact h.1
  cases m with
  | start h1 => rw [hb] at h1; cases h1
  | other h1 => rw [hb] at h1; cases h1
  | ft h1 => exact key _ h1
  | fl h1 => exact key _ h1
  | fp h1 => exact key _ h1
  | sk h1 => exact key _ h1
  | da h1 => exact key _ h1

theorem finishIf_T {c : C} {id : Nat} (h : Inv cf c used log) (hu : used id = true) (hn : c.localErr = none)
    (hs : c.streams id ≠ none) : T (c.finishIf id) id := by
  intro hf hb
  have hrx : (c.finishIf id).rx = c.rx := (finishIf_inv h hu).2.2.1
  rw [hrx] at hf
  cases he : c.streams id with
  | none => exact absurd he hs
  | some s =>
    have hcur := cur_some he
    have hty : s.state = .finished ∨ s.ty = some .request := by
      rcases h.notBroken hn hu with o | o
      · obtain ⟨k, _, m, _⟩ := o.hist
        rw [hcur] at m
        exact .inr (m.bidi hb)
      · rcases o.entry with e | e
        · right
          rw [hcur] at e
          rw [e.ty]
          exact (new_bidi hb _ _ _).1
        · left; rw [← hcur]; exact e
    unfold C.finishIf
    rw [if_pos hf]
    unfold C.processFinished
    rw [he]
    dsimp only
    by_cases hst : s.state = .finished
    · rw [if_pos hst, hcur]; exact hst
    · rw [if_neg hst, hty.resolve_left hst]
      show (C.cur (c.setStrm id s.finish) id).state = _
      rw [cur_setStrm]
      rfl

theorem finishIf_Q {c : C} {id : Nat} (h : Inv cf c used log) (hu : used id = true) (hn : c.localErr = none) (q : Q c id) :
    Q (c.finishIf id) id := by
  have hrx : (c.finishIf id).rx = c.rx := (finishIf_inv h hu).2.2.1
  cases hf : (c.rx id).finished with
  | false =>
    have : c.finishIf id = c := by unfold C.finishIf; rw [hf]; rfl
    rw [this]; exact q
  | true =>
    left
    rw [hrx]
    rcases h.notBroken hn hu with o | o
    · exact finished_off o.wf hf
    · exact finished_off o.wf hf

theorem finishIf_other {c : C} {id j : Nat} (h : j ≠ id) : Same j c (c.finishIf id) ∧ (c.finishIf id).trig j = c.trig j := by
  have key : ∀ c', c'.streams j = c.streams j → c'.isServer = c.isServer → c'.maxField = c.maxField → c'.maxPrio = c.maxPrio →
      c'.localErr = c.localErr → c'.rx = c.rx → Same j c c' ∧ c'.trig j = c.trig j := by
    intro c' h1 h2 h3 h4 h5 h6
    refine ⟨⟨h2, h3, h4, fun e => by rw [h5]; exact e, by rw [h6], ?_⟩, by unfold C.trig; rw [h1]⟩
    unfold C.cur C.fresh
    rw [h1, h3, h4]
    exact .refl _
  unfold C.finishIf
  split
  · unfold C.processFinished
    split
    · exact key _ rfl rfl rfl rfl rfl rfl
    split
    · exact key _ rfl rfl rfl rfl rfl rfl
    split
    all_goals first
      | exact key _ rfl rfl rfl rfl rfl rfl
      | exact key _ (upd_other _ _ h) rfl rfl rfl rfl rfl
  · exact key _ rfl rfl rfl rfl rfl rfl

/-! ### `poll` -/

theorem processStream_eff {spare : Nat → Nat → Nat} {polling : Bool} {id : Nat} {c c' : C} {res : Res} (hi : Inv cf c used log)
    (hu : used id = true) (hn : c.localErr = none) (h : c.processStream spare polling id = (res, c')) : Eff id c c' := by
  rcases hi.notBroken hn hu with o | o
  · exact (processStream_ok hi.dead (fun _ => hn) o h).eff
  · exact (processStream_closed o h).1

theorem popOr_done {k : C → Res × C} {c c' : C} (h : C.popOr k c = (.error .done, c')) :
    c.finished = [] ∧ k c = (.error .done, c') := by
  unfold C.popOr C.popFinished at h
  split at h
  · cases h
  · rename_i c1 hx
    split at hx
    · cases hx
      rename_i hf
      exact ⟨hf, h⟩
    · cases hx

theorem readLoop_done {spare : Nat → Nat → Nat} {k : C → Res × C} :
    ∀ {l : List Nat} {c c' : C}, (∀ i ∈ l, used i = true) → Inv cf c used log → c.localErr = none →
    C.readLoop spare k l c = (.error .done, c') →
    ∃ c1, k c1 = (.error .done, c') ∧ c1.localErr = none ∧ (∀ j ∈ l, Q c1 j ∧ T c1 j) ∧
      ∀ j, (Q c j → Q c1 j) ∧ (T c j → T c1 j) ∨ j ∈ l := by
  intro l
  induction l with
  | nil =>
    intro c c' _ _ hn h
    exact ⟨c, h, hn, (fun j hj => by cases hj), fun j => .inl ⟨fun h => h, fun h => h⟩⟩
  | cons id l ih =>
    intro c c' hl hi hn h
    have hu := hl id (List.mem_cons_self ..)
    unfold C.readLoop at h
    split at h
    · cases h
    · rename_i c1 hs
      have hok := processStream_inv hi hu (fun _ => hn) (fun c => by cases c) (hi.notBroken hn hu) hs
      have hinv : Inv cf c1 used log := hok.inv
      have hn1 : c1.localErr = none := by
        rcases hok.lerr with e | ⟨e, he, hne⟩
        · rw [e]; exact hn
        · cases he; exact absurd rfl (Err.hard_done (hne hn))
      have heff := processStream_eff hi hu hn hs
      have hm := processStream_mild (spare := spare) (polling := true) (id := id) (c := c)
      have hsome := processStream_some (spare := spare) (polling := true) (id := id) (c := c)
      rw [hs] at hm hsome
      obtain ⟨q1, q2, q3, q4⟩ := finishIf_inv hinv hu
      obtain ⟨c2, h1, h2, h3, h4⟩ := ih (fun i hi => hl i (List.mem_cons_of_mem _ hi)) q1 (by rw [q2]; exact hn1) h
      have hq : Q (c1.finishIf id) id := finishIf_Q hinv hu hn1 (processStream_doneQ hi hu hn hs hn1)
      have ht : T (c1.finishIf id) id := finishIf_T hinv hu hn1 hsome
      refine ⟨c2, h1, h2, fun j hj => ?_, fun j => ?_⟩
      · by_cases hjl : j ∈ l
        · exact h3 j hjl
        · have : j = id := by
            rcases List.mem_cons.mp hj with e | e
            · exact e
            · exact absurd e hjl
          subst this
          rcases h4 j with ⟨g1, g2⟩ | g
          · exact ⟨g1 hq, g2 ht⟩
          · exact absurd g hjl
      · rcases h4 j with ⟨g1, g2⟩ | g
        · by_cases e : j = id
          · right; rw [e]; exact List.mem_cons_self ..
          · left
            obtain ⟨f1, f2⟩ := finishIf_other (c := c1) e
            exact ⟨fun q => g1 (Q.same f1 f2 (Q.same (heff.same e) (hm.trig j e) q)), fun t => g2 (T.same f1 (T.same (heff.same e) t))⟩
        · right; exact List.mem_cons_of_mem _ g
    · cases h
    · rename_i e c1 h1 _ hs
      cases h
      exact absurd rfl h1

theorem control_done {spare : Nat → Nat → Nat} {sel : C → Option Nat} {k : C → Res × C} {c c' : C} (hi : Inv cf c used log)
    (hn : c.localErr = none) (h : C.control spare sel k c = (.error .done, c')) :
    ∃ c1, Inv cf c1 used log ∧ c1.localErr = none ∧ k c1 = (.error .done, c') := by
  unfold C.control at h
  split at h
  · exact ⟨c, hi, hn, h⟩
  · rename_i id hid
    cases hx : c.processControl spare id with
    | mk r1 c1 =>
    rw [hx] at h
    rcases processControl_inv hi hn hx with ⟨rfl, h1, h2⟩ | ⟨h1, _⟩
    · exact ⟨c1, h1, h2, h⟩
    · have : (r1, c1) = (.error .done, c') := by
        rw [← h]
        split
        · rename_i hx; cases hx; exact absurd rfl h1
        · rfl
      cases this
      exact absurd rfl h1

theorem poll_done {spare : Nat → Nat → Nat} {rs : List Nat} {c c' : C} (hi : Inv cf c used log) (hn : c.localErr = none)
    (hr : ∀ i ∈ rs, used i = true) (h : c.poll spare rs = (.error .done, c')) :
    c'.finished = [] ∧ ∀ j ∈ rs, Q c' j ∧ T c' j := by
  unfold C.poll at h
  rw [if_neg (by rw [hn]; decide)] at h
  obtain ⟨c1, i1, n1, h1⟩ := control_done hi hn h
  obtain ⟨c2, i2, n2, h2⟩ := control_done i1 n1 h1
  obtain ⟨c3, i3, n3, h3⟩ := control_done i2 n2 h2
  obtain ⟨_, h4⟩ := popOr_done h3
  obtain ⟨c5, h5, _, h6, _⟩ := readLoop_done hr i3 n3 h4
  obtain ⟨h7, h8⟩ := popOr_done h5
  cases h8
  exact ⟨h7, h6⟩

/-! ### `recv_body` -/

theorem finishIf_data {c : C} {id : Nat} (h : ((c.finishIf id).cur id).state = .data) : (c.cur id).state = .data := by
  unfold C.finishIf at h
  split at h
  · unfold C.processFinished at h
    split at h
    · exact h
    split at h
    · exact h
    split at h
    all_goals first
      | exact h
      | (have : ((C.cur (c.setStrm id _) id).state = .data) := h
         rw [cur_setStrm] at this
         cases this)
      | (rw [cur_remove] at h; exact absurd h (fresh_state _ _))
  · exact h

theorem bodyEnd_not_done {c : C} {id : Nat} {got : Bytes} (hg : got ≠ []) : (c.bodyEnd id got).1.1 ≠ .error .done := by
  unfold C.bodyEnd
  cases got with
  | nil => exact absurd rfl hg
  | cons a l => simp

theorem bodyLoop_not_done {spare : Nat → Nat → Nat} {id : Nat} : ∀ {k n : Nat} {got : Bytes} {c : C}, got ≠ [] →
    c.streams id ≠ none → (C.bodyLoop spare id k n got c).1.1 ≠ .error .done := by
  intro k
  induction k with
  | zero => intro n got c _ _; exact fun h => by cases h
  | succ k ih =>
    intro n got c hg hs
    have hg' : ∀ bs, got ++ bs ≠ [] := fun bs h => hg (List.append_eq_nil_iff.mp h).1
    unfold C.bodyLoop
    split
    · exact bodyEnd_not_done hg
    split
    · rename_i h; exact absurd h hs
    split
    · exact bodyEnd_not_done hg
    split
    · exact bodyEnd_not_done hg
    · rename_i e _ _ h1 _
      intro h
      cases h
      exact absurd rfl h1
    · rename_i bs fin s1 r1 _
      split
      · exact bodyEnd_not_done (hg' _)
      split
      · exact fun h => by cases h
      · rename_i c1 hx
        split
        · exact bodyEnd_not_done (hg' _)
        · refine ih (hg' _) ?_
          have := processStream_some (spare := spare) (polling := false) (id := id) (c := c.put id s1 r1)
          rw [hx] at this
          exact this
      · rename_i e c1 h1 _
        intro h
        cases h
        exact absurd rfl h1

/-- After Done, a stream inside DATA has nothing to read. -/
theorem recvBody_done {spare : Nat → Nat → Nat} {id n : Nat} {c c' : C} {got : Bytes} (hn : n ≠ 0) (hw : (c.rx id).WF)
    (hle : (c.cur id).state = .data → (c.cur id).off ≤ (c.cur id).len)
    (h : c.recvBody spare id n = ((.error .done, got), c')) (hst : (c'.cur id).state = .data) :
    (c'.rx id).off = (c'.rx id).all.length := by
  unfold C.recvBody C.bodyLoop at h
  rw [if_neg hn] at h
  split at h
  · rename_i hs
    cases h
    unfold C.cur at hst
    rw [hs] at hst
    exact absurd hst (fresh_state _ _)
  rename_i s hs
  rw [cur_some hs] at hle
  split at h
  · rename_i hsd
    cases h
    have := finishIf_data hst
    rw [cur_some hs] at this
    exact absurd this hsd
  rename_i hsd
  have hsd : s.state = .data := by simpa using hsd
  have hrx : ∀ (c : C), (c.finishIf id).rx = c.rx := by
    intro c
    unfold C.finishIf
    split
    · unfold C.processFinished
      split
      · rfl
      split
      · rfl
      split <;> rfl
    · rfl
  split at h
  · rename_i s1 r1 hx
    have h2 : (c.put id s1 r1).finishIf id = c' := by
      have := congrArg Prod.snd h; exact this
    rw [← h2, hrx]
    show ((upd c.rx id r1) id).off = ((upd c.rx id r1) id).all.length
    rw [upd_same]
    unfold Strm.tryData at hx
    split at hx
    · rename_i r' hr
      cases hx
      exact recv_done hw hr
    · rename_i e r' he hr
      cases hx
      exact absurd rfl he
    · cases hx
  · rename_i e _ _ h1 _
    cases h
    exact absurd rfl h1
  · rename_i bs fin s1 r1 hx
    split at h
    · have h2 : (c.put id s1 r1).finishIf id = c' := by
        have := congrArg Prod.snd h; exact this
      have hbs : bs = [] := by
        cases bs with
        | nil => rfl
        | cons a l => exact absurd (congrArg (fun x => x.1.1) h) (bodyEnd_not_done (by simp))
      subst hbs
      rw [← h2] at hst ⊢
      rw [hrx]
      replace hst := finishIf_data hst
      rw [show (c.put id s1 r1).cur id = s1 from cur_some (put_strm _ _ _ _)] at hst
      show ((upd c.rx id r1) id).off = ((upd c.rx id r1) id).all.length
      rw [upd_same]
      unfold Strm.tryData at hx
      split at hx
      · cases hx
      · cases hx
      · rename_i bs fin r' hr
        dsimp only at hx
        have e1 : bs = [] := by
          have := congrArg Prod.fst hx
          simp only [Except.ok.injEq, Prod.mk.injEq] at this
          exact this.1
        have e2 : r' = r1 := congrArg (fun x => x.2.2) hx
        have e3 := congrArg (fun x => x.2.1) hx
        dsimp only at e3
        subst e1 e2
        by_cases hz : min n (s.len - s.off) = 0
        · have hoff : s.off = s.len := by have := hle hsd; omega
          have : s1.state = .frameType := by
            rw [← e3]
            have hc : ∀ t : Strm, t.off = s.off → t.len = s.len → t.dataDone.state = .frameType := by
              intro t h1 h2
              unfold Strm.dataDone Strm.complete
              rw [h1, h2, hoff]
              simp [Strm.transition, maxStateBuf]
            split
            · exact hc _ rfl rfl
            · exact hc _ rfl rfl
          rw [this] at hst; cases hst
        · exact recv_short hw hr (by simp; omega)
    rename_i hne
    have hne : bs ≠ [] := by
      intro e; subst e; simp at hne
    split at h
    · cases h
    · rename_i c1 hp
      have hsome := processStream_some (spare := spare) (polling := false) (id := id) (c := c.put id s1 r1)
      rw [hp] at hsome
      have hg : ([] : Bytes) ++ bs ≠ [] := by simpa using hne
      split at h
      · exact absurd (congrArg (fun x => x.1.1) h) (bodyEnd_not_done hg)
      · exact absurd (congrArg (fun x => x.1.1) h) (bodyLoop_not_done hg hsome)
    · rename_i e _ h1 _
      cases h
      exact absurd rfl h1

end Verif.H3
