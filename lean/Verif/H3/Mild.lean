import Verif.H3.Inv

/-! Processing does not finish streams, and does not change what is known of the local half. -/

namespace Verif.H3
open Verif

/-- `s'` is finished only if `s` was, and the local half is the same. -/
def SMild (s s' : Strm) : Prop :=
  s'.localFinished = s.localFinished ∧ (s'.state = .finished → s.state = .finished)

theorem SMild.refl (s : Strm) : SMild s s := ⟨rfl, fun h => h⟩
theorem SMild.trans {a b c : Strm} (h : SMild a b) (g : SMild b c) : SMild a c :=
  ⟨g.1.trans h.1, fun e => h.2 (g.2 e)⟩

/-- The local half is finished. -/
def C.lf (c : C) (id : Nat) : Bool :=
  match c.streams id with
  | some s => s.localFinished
  | none => false

/-- The peer's half is finished, and the application will be told or has been. -/
def C.over (c : C) (id : Nat) : Bool :=
  match c.streams id with
  | some s => s.state == .finished
  | none => false

/-- The stream is inside DATA, and the application has been told. -/
def C.trig (c : C) (id : Nat) : Bool :=
  match c.streams id with
  | some s => s.state == .data && s.dataTriggered
  | none => false

/-- Processing of the stream `i`. -/
structure Mild (i : Nat) (c c' : C) : Prop where
  fin : c'.finished = c.finished
  lf : ∀ j, c'.lf j = c.lf j
  over : ∀ j, c'.over j = true → c.over j = true
  other : ∀ j, j ≠ i → c'.over j = c.over j
  trig : ∀ j, j ≠ i → c'.trig j = c.trig j
  some : ∀ j, c.streams j ≠ none → c'.streams j ≠ none

theorem Mild.refl (i : Nat) (c : C) : Mild i c c := ⟨rfl, fun _ => rfl, fun _ h => h, fun _ _ => rfl, fun _ _ => rfl, fun _ h => h⟩
theorem Mild.trans {i : Nat} {a b c : C} (h : Mild i a b) (g : Mild i b c) : Mild i a c :=
  ⟨g.1.trans h.1, fun j => (g.2 j).trans (h.2 j), fun j e => h.3 j (g.3 j e), fun j e => (g.4 j e).trans (h.4 j e),
    fun j e => (g.5 j e).trans (h.5 j e), fun j e => g.6 j (h.6 j e)⟩

theorem setStrm_some (c : C) (id : Nat) (s : Strm) (j : Nat) (h : c.streams j ≠ none) : (c.setStrm id s).streams j ≠ none := by
  by_cases e : j = id
  · subst e; rw [show (c.setStrm j s).streams j = some s from upd_same _ _ _]; simp
  · rw [show (c.setStrm id s).streams j = c.streams j from upd_other _ _ e]; exact h

theorem mild_setStrm {c : C} {id : Nat} {s s' : Strm} (hs : c.streams id = some s) (h : SMild s s') :
    Mild id c (c.setStrm id s') := by
  refine ⟨rfl, fun j => ?_, fun j => ?_, fun j e => ?_, fun j e => ?_, setStrm_some _ _ _⟩
  rotate_right
  · unfold C.trig
    rw [show (c.setStrm id s').streams j = c.streams j from upd_other _ _ e]
  rotate_right
  · unfold C.over
    rw [show (c.setStrm id s').streams j = c.streams j from upd_other _ _ e]
  · unfold C.lf
    by_cases e : j = id
    · subst e; rw [show (c.setStrm j s').streams j = some s' from upd_same _ _ _, hs]; exact h.1
    · rw [show (c.setStrm id s').streams j = c.streams j from upd_other _ _ e]
  · unfold C.over
    by_cases e : j = id
    · subst e; rw [show (c.setStrm j s').streams j = some s' from upd_same _ _ _, hs]
      intro k
      simpa using h.2 (by simpa using k)
    · rw [show (c.setStrm id s').streams j = c.streams j from upd_other _ _ e]; exact fun h => h

theorem mild_fresh {c : C} {id el : Nat} {s : Strm} (hs : (∃ s0, c.streams el = some s0 ∧ s.localFinished = s0.localFinished ∧ s.state = s0.state ∧
        s.dataTriggered = s0.dataTriggered) ∨
      (c.streams el = none ∧ s.localFinished = false ∧ s.state ≠ .finished ∧ s.state ≠ .data)) : Mild id c (c.setStrm el s) := by
  have h1 : ∀ j, (c.setStrm el s).lf j = c.lf j := by
    intro j
    unfold C.lf
    by_cases e : j = el
    · subst e
      rw [show (c.setStrm j s).streams j = some s from upd_same _ _ _]
      rcases hs with ⟨s0, h1, h2, _⟩ | ⟨h1, h2, _⟩ <;> rw [h1] <;> exact h2
    · rw [show (c.setStrm el s).streams j = c.streams j from upd_other _ _ e]
  have h2 : ∀ j, (c.setStrm el s).over j = c.over j := by
    intro j
    unfold C.over
    by_cases e : j = el
    · subst e
      rw [show (c.setStrm j s).streams j = some s from upd_same _ _ _]
      rcases hs with ⟨s0, h1, _, h2, _⟩ | ⟨h1, _, h2, _⟩
      · rw [h1]; dsimp only; rw [h2]
      · rw [h1]; simpa using h2
    · rw [show (c.setStrm el s).streams j = c.streams j from upd_other _ _ e]
  have h3 : ∀ j, (c.setStrm el s).trig j = c.trig j := by
    intro j
    unfold C.trig
    by_cases e : j = el
    · subst e
      rw [show (c.setStrm j s).streams j = some s from upd_same _ _ _]
      rcases hs with ⟨s0, h1, _, h2, h3⟩ | ⟨h1, _, _, h2⟩
      · rw [h1]; dsimp only; rw [h2, h3]
      · rw [h1]; simp [h2]
    · rw [show (c.setStrm el s).streams j = c.streams j from upd_other _ _ e]
  exact ⟨rfl, h1, fun j e => by rw [← h2]; exact e, fun j _ => h2 j, fun j _ => h3 j, setStrm_some _ _ _⟩

theorem mild_streams {id : Nat} {c c' : C} (h1 : c'.streams = c.streams) (h2 : c'.finished = c.finished) : Mild id c c' :=
  ⟨h2, (fun j => by unfold C.lf; rw [h1]), (fun j => by unfold C.over; rw [h1]; exact fun h => h), (fun j _ => by unfold C.over; rw [h1]),
    (fun j _ => by unfold C.trig; rw [h1]), (fun j e => by rw [h1]; exact e)⟩

theorem mild_put {c : C} {id : Nat} {s s' : Strm} {r : Rx} (hs : c.streams id = some s) (h : SMild s s') :
    Mild id c (c.put id s' r) := (mild_setStrm hs h).trans (mild_streams rfl rfl)

theorem mild_closeWith {id : Nat} (c : C) (code : Nat) (e : Err) : Mild id c (c.closeWith code e).2 := by
  unfold C.closeWith C.close
  cases h : (c.dead || c.localErr.isSome) with
  | true => rw [if_pos rfl]; exact .refl id c
  | false => rw [if_neg (by decide)]; exact mild_streams rfl rfl

theorem mild_fail {id : Nat} (c : C) (e : Err) : Mild id c (c.fail e).2 := mild_closeWith c _ _

/-! ### Streams -/

theorem fillLoop_mild {spare : Nat → Nat → Nat} : ∀ {k : Nat} {s : Strm} {r : Rx},
    SMild s (Strm.fillLoop spare k s r).2.1 := by
  intro k
  induction k with
  | zero => intro s r; exact .refl s
  | succ k ih =>
    intro s r
    unfold Strm.fillLoop
    split
    · split
      · exact .refl s
      split
      · split <;> exact .refl s
      split
      · exact .refl s
      · exact ih (s := s.commit _)
    · split <;> exact .refl s
    · exact .refl s
    · exact .refl s

theorem tryFill_mild {spare : Nat → Nat → Nat} {s : Strm} {r : Rx} : SMild s (s.tryFill spare r).2.1 := by
  unfold Strm.tryFill
  split
  · exact .refl s
  · exact fillLoop_mild

theorem transition_mild (s : Strm) {st : SState} (n : Nat) (b : Bool) (h : st ≠ .finished) :
    SMild s (s.transition st n b).2 := by
  unfold Strm.transition
  split
  · exact .refl s
  · exact ⟨rfl, fun e => absurd e h⟩

theorem trySkip_mild {s : Strm} {r : Rx} : SMild s (s.trySkipFrame r).2.1 := by
  have key : SMild s (s.trySkipData r).2.1 := by
    unfold Strm.trySkipData
    split
    · exact .refl s
    split
    · split
      · exact .refl s
      split <;> exact .refl s
    · split <;> exact .refl s
    · exact .refl s
    · exact .refl s
  unfold Strm.trySkipFrame
  split
  · rename_i s1 r1 hx
    rw [hx] at key
    exact SMild.trans (b := s1.rearm) key (transition_mild _ 1 true (by decide))
  · exact key

theorem tryVarint_mild (s : Strm) : SMild s s.tryVarint.2 := by
  have key : SMild s s.varintLen := by
    unfold Strm.varintLen
    split <;> exact .refl s
  unfold Strm.tryVarint
  split
  · exact key
  · split <;> exact key

theorem setFrameType_mild (s : Strm) (t : Nat) : SMild s (s.setFrameType t).2 := by
  have key : ∀ s', s.validate t = .ok s' → SMild s s' := by
    intro s' h
    unfold Strm.validate at h
    split at h
    · unfold Strm.validateControl at h
      split at h
      · split at h
        · cases h; exact .refl s
        · cases h
      · split at h
        · cases h
        · cases h; exact .refl s
    · unfold Strm.validateRequest at h
      repeat' split at h
      all_goals first
        | (cases h; done)
        | (cases h; exact .refl s)
    · unfold Strm.validatePush at h
      split at h
      · cases h
      · cases h; exact .refl s
    · cases h
  unfold Strm.setFrameType
  split
  · exact .refl s
  · rename_i s' he
    exact SMild.trans (b := { s' with frameType := some t }) (key s' he) (transition_mild _ 1 true (by decide))

theorem payloadState_mild {s : Strm} {n : Nat} {st : SState} {b : Bool} (h : s.payloadState n = .ok (st, b)) :
    st ≠ .finished := by
  unfold Strm.payloadState at h
  repeat' split at h
  all_goals first
    | (cases h; done)
    | (cases h; exact fun e => by cases e)

theorem setFramePayloadLen_mild (s : Strm) (n : Nat) : SMild s (s.setFramePayloadLen n).2 := by
  unfold Strm.setFramePayloadLen
  split
  · exact .refl s
  split
  · exact .refl s
  · rename_i st b h
    exact transition_mild _ _ _ (payloadState_mild h)

theorem tryFrame_mild {s : Strm} : SMild s s.tryFrame.2 := by
  unfold Strm.tryFrame
  split
  · exact .refl s
  split
  · exact .refl s
  · exact SMild.trans (b := s.rearm) (.refl s) (transition_mild _ 1 true (by decide))

theorem setTy_mild (s : Strm) (ty : Ty) : SMild s (s.setTy ty).2 :=
  SMild.trans (b := s.withTy ty) (.refl s) (transition_mild _ 1 true (by cases ty <;> exact fun e => by cases e))

theorem tryData_mild {s : Strm} {r : Rx} {n : Nat} : SMild s (s.tryData r n).2.1 := by
  have hd : ∀ s : Strm, SMild s s.dataDone := by
    intro s
    unfold Strm.dataDone
    split
    · exact transition_mild _ _ _ (by decide)
    · exact .refl s
  unfold Strm.tryData
  split
  · exact .refl s
  · exact .refl s
  · rename_i bs fin r' _
    dsimp only
    split
    · exact SMild.trans (b := { s with off := s.off + bs.length }) (.refl s) (hd _)
    · exact SMild.trans (b := { s with off := s.off + bs.length }.rearm) (.refl s) (hd _)

/-! ### Frames -/

theorem mild_resFailed {id : Nat} (c : C) (e : Err) : Mild id c (resFailed (c.fail e)).2 := mild_fail c e
theorem mild_stepFailed {id : Nat} (c : C) (e : Err) : Mild id c (stepFailed (c.fail e)).2 := mild_fail c e

theorem new_state (id : Nat) (b : Bool) (m p : Nat) : (Strm.new id b m p).state ≠ .finished ∧
    (Strm.new id b m p).state ≠ .data := by
  unfold Strm.new
  cases isBidi id <;> exact ⟨(fun e => by cases e), (fun e => by cases e)⟩

theorem processFrame_mild {c : C} {id : Nat} {f : Frame} : Mild id c (c.processFrame id f).2 := by
  cases f with
  | data p => exact .refl id c
  | cancelPush p => exact .refl id c
  | unknown t p => exact .refl id c
  | settings s =>
    show Mild id c (c.onSettings s).2
    unfold C.onSettings
    dsimp only
    have h1 : Mild id c { c with peerSettings := { s with grease := none } } := mild_streams rfl rfl
    split
    · exact h1.trans (mild_resFailed _ _)
    · exact h1
  | headers b =>
    show Mild id c (c.onHeaders id b).2
    unfold C.onHeaders
    have key : ∀ c1, c.countHeaders id = some c1 → Mild id c c1 := by
      intro c1 h
      unfold C.countHeaders at h
      split at h
      · cases h; exact .refl id c
      · rename_i s hs
        split at h
        · cases h
        · cases h; exact mild_setStrm hs ⟨rfl, fun h => h⟩
    split
    · exact mild_resFailed _ _
    · rename_i c1 hc
      split
      · exact key c1 hc
      · exact (key c1 hc).trans (mild_resFailed _ _)
  | goAway g =>
    show Mild id c (c.onGoAway g).2
    unfold C.onGoAway
    split
    · exact mild_closeWith _ _ _
    split
    · split
      · exact mild_resFailed _ _
      · exact mild_streams rfl rfl
    · exact mild_streams rfl rfl
  | maxPushId p =>
    show Mild id c (c.onMaxPushId p).2
    unfold C.onMaxPushId
    split
    · exact mild_resFailed _ _
    split
    · exact mild_resFailed _ _
    · exact mild_streams rfl rfl
  | pushPromise p b =>
    show Mild id c (c.onPushPromise id).2
    unfold C.onPushPromise
    split
    · exact mild_resFailed _ _
    split
    · exact mild_resFailed _ _
    · exact .refl id c
  | prioRequest el v =>
    show Mild id c (c.onPrioRequest el v).2
    unfold C.onPrioRequest
    split
    · exact mild_resFailed _ _
    split
    · exact mild_resFailed _ _
    split
    · exact mild_resFailed _ _
    split
    · exact .refl id c
    unfold C.storePrio
    dsimp only
    have key : Mild id c (c.setStrm el { (c.streams el).getD (c.fresh el) with lastPrio := some v }) := by
      cases hs : c.streams el with
      | some s => exact mild_fresh (.inl ⟨s, hs, rfl, rfl, rfl⟩)
      | none => exact mild_fresh (.inr ⟨hs, rfl, show (c.fresh el).state ≠ .finished ∧ (c.fresh el).state ≠ .data from new_state _ _ _ _⟩)
    split <;> exact key
  | prioPush el v =>
    show Mild id c (c.onPrioPush el).2
    unfold C.onPrioPush
    split
    · exact mild_resFailed _ _
    split
    · exact mild_resFailed _ _
    · exact .refl id c

/-! ### Iterations -/

theorem filled_mild {c : C} {id : Nat} {s : Strm} {x : Fill × Strm × Rx} {k : Strm → C → Step × C}
    (hs : c.streams id = some s) (hx : SMild s x.2.1)
    (hk : ∀ s1 c1, c1.streams id = some s1 → Mild id c1 (k s1 c1).2) : Mild id c (c.filled id x k).2 := by
  obtain ⟨f, s1, r1⟩ := x
  have h1 : Mild id c (c.put id s1 r1) := mild_put hs hx
  cases f with
  | ok => exact h1.trans (hk s1 _ (put_strm _ _ _ _))
  | err e => exact h1
  | closedCritical => exact h1.trans (mild_stepFailed _ _)

theorem varint_mild {c : C} {id : Nat} {s : Strm} {k : Nat → Strm → C → Step × C} (hs : c.streams id = some s)
    (hk : ∀ v s1 c1, c1.streams id = some s1 → Mild id c1 (k v s1 c1).2) : Mild id c (c.varint id s k).2 := by
  unfold C.varint
  have ht := tryVarint_mild s
  split
  · rename_i s1 hv
    rw [hv] at ht
    exact mild_setStrm hs ht
  · rename_i v s1 hv
    rw [hv] at ht
    exact (mild_setStrm hs ht).trans (hk v s1 _ (upd_same _ _ _))

theorem applied_mild {c : C} {id : Nat} {s : Strm} {x : Except Err Unit × Strm} {k : C → Step × C}
    (hs : c.streams id = some s) (hx : SMild s x.2) (hk : ∀ c1, Mild id c1 (k c1).2) : Mild id c (c.applied id x k).2 := by
  obtain ⟨f, s1⟩ := x
  have h1 : Mild id c (c.setStrm id s1) := mild_setStrm hs hx
  cases f with
  | error e => exact h1.trans (mild_stepFailed _ _)
  | ok u => exact h1.trans (hk _)

theorem openPeer_mild {c : C} {id : Nat} {ty : Ty} : Mild id c (c.openPeer id ty).2 := by
  have key : ∀ (old : Option Nat) (set : C → C), Mild id c (set c) → Mild id c (c.openCritical id old set).2 := by
    intro old set h
    unfold C.openCritical
    split
    · exact mild_stepFailed _ _
    split
    · exact mild_stepFailed _ _
    · exact h
  cases ty with
  | control => exact key _ _ (mild_streams rfl rfl)
  | qpackEncoder => exact key _ _ (mild_streams rfl rfl)
  | qpackDecoder => exact key _ _ (mild_streams rfl rfl)
  | push => exact mild_stepFailed _ _
  | unknown => exact .refl id c
  | request => exact .refl id c

theorem qpackLoop_mild {id : Nat} {s : Strm} : ∀ {k : Nat} {c : C}, Mild id c (C.qpackLoop id s k c).2 := by
  intro k
  induction k with
  | zero => intro c; exact .refl id c
  | succ k ih =>
    intro c
    have hcount : ∀ (c1 : C) (n : Nat), Mild id c1 (c1.countQpack s n) := by
      intro c1 n
      unfold C.countQpack
      split <;> exact mild_streams rfl rfl
    unfold C.qpackLoop
    split
    · exact mild_streams rfl rfl
    · rename_i bs fin r hr
      have h1 : Mild id c ((c.setRx id r).countQpack s bs.length) :=
        Mild.trans (i := id) (b := c.setRx id r) (mild_streams rfl rfl) (hcount _ _)
      split
      · exact h1.trans (mild_stepFailed _ _)
      · exact h1.trans ih

theorem iter_mild {spare : Nat → Nat → Nat} {polling : Bool} {id : Nat} {c : C} : Mild id c (C.iter spare polling id c).2 := by
  unfold C.iter
  split
  · exact .refl id c
  rename_i s hs
  split
  · exact filled_mild hs tryFill_mild fun s1 c1 hs1 => varint_mild hs1 fun v s2 c2 hs2 =>
      applied_mild hs2 (setTy_mild _ _) fun c3 => openPeer_mild
  · exact filled_mild hs tryFill_mild fun s1 c1 hs1 => varint_mild hs1 fun v s2 c2 hs2 =>
      applied_mild hs2 (transition_mild _ _ _ (by decide)) fun c3 => .refl id c3
  · exact filled_mild hs tryFill_mild fun s1 c1 hs1 => varint_mild hs1 fun v s2 c2 hs2 =>
      applied_mild hs2 (setFrameType_mild _ _) fun c3 => .refl id c3
  · exact filled_mild hs tryFill_mild fun s1 c1 hs1 => varint_mild hs1 fun v s2 c2 hs2 =>
      applied_mild hs2 (setFramePayloadLen_mild _ _) fun c3 => .refl id c3
  · split
    · exact .refl id c
    refine filled_mild hs tryFill_mild fun s1 c1 hs1 => ?_
    have hf : SMild s1 s1.tryFrame.2 := tryFrame_mild
    split
    · rename_i e s2 hx
      rw [hx] at hf
      exact (mild_setStrm hs1 hf).trans (mild_stepFailed _ _)
    · rename_i f s2 hx
      rw [hx] at hf
      have h2 : Mild id c1 ((c1.setStrm id s2).processFrame id f).2 := (mild_setStrm hs1 hf).trans processFrame_mild
      generalize (c1.setStrm id s2).processFrame id f = x at h2
      obtain ⟨r, c2⟩ := x
      unfold C.afterFrame
      split
      · rename_i c3 hx
        cases hx
        split <;> exact h2
      · rename_i r3 c3 _ hx
        cases hx
        exact h2
  · split
    · exact .refl id c
    split
    · exact .refl id c
    · exact mild_setStrm hs ⟨rfl, fun h => h⟩
  · exact qpackLoop_mild
  · refine filled_mild hs trySkip_mild fun s1 c1 hs1 => ?_
    split <;> exact .refl id c1
  · split <;> exact mild_streams rfl rfl
  · exact .refl id c

theorem loop_mild {spare : Nat → Nat → Nat} {polling : Bool} {id : Nat} : ∀ {k : Nat} {c : C},
    Mild id c (C.loop spare polling id k c).2 := by
  intro k
  induction k with
  | zero => intro c; exact .refl id c
  | succ k ih =>
    intro c
    have h1 := iter_mild (spare := spare) (polling := polling) (id := id) (c := c)
    unfold C.loop
    split
    · rename_i r c1 hx
      rw [hx] at h1
      exact h1
    · rename_i c1 hx
      rw [hx] at h1
      exact h1.trans ih

theorem ensure_mild (c : C) (id : Nat) : Mild id c (c.ensure id) := by
  unfold C.ensure
  split
  · exact .refl id c
  · rename_i hs
    exact mild_fresh (.inr ⟨hs, rfl, new_state _ _ _ _⟩)

theorem processStream_mild {spare : Nat → Nat → Nat} {polling : Bool} {id : Nat} {c : C} :
    Mild id c (c.processStream spare polling id).2 := (ensure_mild c id).trans loop_mild

/-- A stream that is over is not processed. -/
theorem processStream_over {spare : Nat → Nat → Nat} {polling : Bool} {id : Nat} {c : C} (h : c.over id = true) :
    c.processStream spare polling id = (.error .done, c) := by
  unfold C.over at h
  split at h
  · rename_i s hs
    have he : c.ensure id = c := by unfold C.ensure; rw [hs]
    unfold C.processStream
    rw [he]
    unfold C.fuel C.loop C.iter
    rw [hs]
    dsimp only
    rw [show s.state = .finished by simpa using h]
  · cases h

end Verif.H3
