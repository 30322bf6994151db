import Verif.H3.Mild
import Verif.H3.Crit
import Verif.H3.Trace

/-! How often the end of a stream is told, and when streams are forgotten. -/

namespace Verif.H3
open Verif

/-- For the stream `j`, with `k` events that tell of its end: unless the local half is finished,
a stream that is over stays so, and the events were waiting or the stream is over only now. -/
structure R (j : Nat) (c : C) (k : Nat) (c' : C) : Prop where
  lf : c.lf j = false → c'.lf j = false
  over : c.lf j = false → c.over j = true → c'.over j = true
  count : c.lf j = false → k + c'.finished.count j + (c.over j).toNat ≤ c.finished.count j + (c'.over j).toNat

/-- Streams of which both halves are finished are kept only while the application has not been told. -/
def Kept (c : C) : Prop := ∀ j, c.over j = true → c.lf j = true → j ∈ c.finished

def ends (j : Nat) (res : Option Res) : Nat := if res = some (.ok (j, .finished)) then 1 else 0

structure Fx (c : C) (res : Option Res) (c' : C) : Prop where
  strm : ∀ j, R j c (ends j res) c'
  kept : Kept c → Kept c'

theorem Fx.trans {a b c : C} {res : Option Res} (h : Fx a none b) (g : Fx b res c) : Fx a res c := by
  refine ⟨fun j => ⟨fun e => (g.strm j).lf ((h.strm j).lf e), fun e o => (g.strm j).over ((h.strm j).lf e) ((h.strm j).over e o), fun e => ?_⟩,
    fun k => g.kept (h.kept k)⟩
  have h1 := (h.strm j).count e
  have h2 := (g.strm j).count ((h.strm j).lf e)
  rw [show ends j none = 0 from rfl] at h1
  omega

theorem ends_error (j : Nat) (e : Err) : ends j (some (.error e)) = 0 := if_neg (by simp)
theorem ends_not {j : Nat} {res : Option Res} (h : ∀ i, res ≠ some (.ok (i, .finished))) : ends j res = 0 := if_neg (h j)

/-- Nothing about these changes. -/
theorem Fx.same {c c' : C} {res : Option Res} (hr : ∀ i, res ≠ some (.ok (i, .finished)))
    (h1 : ∀ j, c'.lf j = c.lf j) (h2 : ∀ j, c'.over j = c.over j) (h3 : c'.finished = c.finished) : Fx c res c' := by
  refine ⟨fun j => ⟨fun e => by rw [h1]; exact e, fun _ o => by rw [h2]; exact o, fun _ => ?_⟩, fun k j => ?_⟩
  · rw [ends_not hr, h2, h3]; omega
  · rw [h1, h2, h3]; exact k j

theorem Fx.streams {c c' : C} {res : Option Res} (hr : ∀ i, res ≠ some (.ok (i, .finished)))
    (h1 : c'.streams = c.streams) (h2 : c'.finished = c.finished) : Fx c res c' :=
  .same hr (fun j => by unfold C.lf; rw [h1]) (fun j => by unfold C.over; rw [h1]) h2

/-! ### Processing -/

/-- Processing does not tell of ends. -/
def NF (x : Step × C) : Prop := ∀ i, x.1 ≠ .ret (.ok (i, .finished))

theorem nf_filled {c : C} {id : Nat} {x : Fill × Strm × Rx} {k : Strm → C → Step × C} (hk : ∀ s c, NF (k s c)) :
    NF (c.filled id x k) := by
  obtain ⟨f, s1, r1⟩ := x
  cases f with
  | ok => exact hk _ _
  | err e => exact fun i h => by cases h
  | closedCritical => exact fun i h => by cases h

theorem nf_varint {c : C} {id : Nat} {s : Strm} {k : Nat → Strm → C → Step × C} (hk : ∀ v s c, NF (k v s c)) :
    NF (c.varint id s k) := by
  unfold C.varint
  split
  · exact fun i h => by cases h
  · exact hk _ _ _

theorem nf_applied {c : C} {id : Nat} {x : Except Err Unit × Strm} {k : C → Step × C} (hk : ∀ c, NF (k c)) :
    NF (c.applied id x k) := by
  obtain ⟨f, s1⟩ := x
  cases f with
  | error e => exact fun i h => by cases h
  | ok u => exact hk _

theorem nf_qpack {id : Nat} {s : Strm} : ∀ {k : Nat} {c : C}, NF (C.qpackLoop id s k c) := by
  intro k
  induction k with
  | zero => intro c i h; cases h
  | succ k ih =>
    intro c
    unfold C.qpackLoop
    split
    · exact fun i h => by cases h
    split
    · exact fun i h => by cases h
    · exact ih

theorem nf_frame {c : C} {id i : Nat} {f : Frame} : (c.processFrame id f).1 ≠ .ok (i, .finished) := by
  cases f with
  | data p => exact fun h => by cases h
  | cancelPush p => exact fun h => by cases h
  | unknown t p => exact fun h => by cases h
  | settings s =>
    show (c.onSettings s).1 ≠ _
    unfold C.onSettings; dsimp only
    split <;> exact fun h => by cases h
  | headers b =>
    show (c.onHeaders id b).1 ≠ _
    unfold C.onHeaders
    split
    · exact fun h => by cases h
    split <;> exact fun h => by cases h
  | goAway g =>
    show (c.onGoAway g).1 ≠ _
    unfold C.onGoAway
    repeat' split
    all_goals exact fun h => by cases h
  | maxPushId p =>
    show (c.onMaxPushId p).1 ≠ _
    unfold C.onMaxPushId
    repeat' split
    all_goals exact fun h => by cases h
  | pushPromise p b =>
    show (c.onPushPromise id).1 ≠ _
    unfold C.onPushPromise
    repeat' split
    all_goals exact fun h => by cases h
  | prioRequest el v =>
    show (c.onPrioRequest el v).1 ≠ _
    unfold C.onPrioRequest C.storePrio
    dsimp only
    repeat' split
    all_goals exact fun h => by cases h
  | prioPush el v =>
    show (c.onPrioPush el).1 ≠ _
    unfold C.onPrioPush
    repeat' split
    all_goals exact fun h => by cases h

theorem nf_open {c : C} {id : Nat} {ty : Ty} : NF (c.openPeer id ty) := by
  have key : ∀ (old : Option Nat) (set : C → C), NF (c.openCritical id old set) := by
    intro old set
    unfold C.openCritical
    repeat' split
    all_goals exact fun i h => by cases h
  cases ty with
  | control => exact key _ _
  | qpackEncoder => exact key _ _
  | qpackDecoder => exact key _ _
  | push => exact fun i h => by cases h
  | unknown => exact fun i h => by cases h
  | request => exact fun i h => by cases h

theorem nf_iter {spare : Nat → Nat → Nat} {polling : Bool} {id : Nat} {c : C} : NF (C.iter spare polling id c) := by
  unfold C.iter
  split
  · exact fun i h => by cases h
  split
  · exact nf_filled fun _ _ => nf_varint fun _ _ _ => nf_applied fun _ => nf_open
  · exact nf_filled fun _ _ => nf_varint fun _ _ _ => nf_applied fun _ i h => by cases h
  · exact nf_filled fun _ _ => nf_varint fun _ _ _ => nf_applied fun _ i h => by cases h
  · exact nf_filled fun _ _ => nf_varint fun _ _ _ => nf_applied fun _ i h => by cases h
  · split
    · exact fun i h => by cases h
    refine nf_filled fun s1 c1 => ?_
    split
    · exact fun i h => by cases h
    · rename_i f s2 _
      have h2 := fun i => nf_frame (c := c1.setStrm id s2) (id := id) (i := i) (f := f)
      generalize (c1.setStrm id s2).processFrame id f = x at h2
      obtain ⟨r, c2⟩ := x
      unfold C.afterFrame
      split
      · split <;> exact fun i h => by cases h
      · rename_i hx
        cases hx
        exact fun i h => h2 i (by injection h)
  · repeat' split
    all_goals exact fun i h => by cases h
  · exact nf_qpack
  · refine nf_filled fun s1 c1 => ?_
    split <;> exact fun i h => by cases h
  · split <;> exact fun i h => by cases h
  · exact fun i h => by cases h

theorem nf_loop {spare : Nat → Nat → Nat} {polling : Bool} {id : Nat} : ∀ {k : Nat} {c : C} (i : Nat),
    (C.loop spare polling id k c).1 ≠ .ok (i, .finished) := by
  intro k
  induction k with
  | zero => intro c i h; cases h
  | succ k ih =>
    intro c i
    have h1 := nf_iter (spare := spare) (polling := polling) (id := id) (c := c)
    unfold C.loop
    split
    · rename_i r c1 hx
      rw [hx] at h1
      exact fun h => h1 i (by rw [← h])
    · exact ih i

theorem processStream_fx {spare : Nat → Nat → Nat} {polling : Bool} {id : Nat} {c : C} :
    Fx c (some (c.processStream spare polling id).1) (c.processStream spare polling id).2 ∧
    ∀ i, (c.processStream spare polling id).1 ≠ .ok (i, .finished) := by
  have hm := processStream_mild (spare := spare) (polling := polling) (id := id) (c := c)
  have hn : ∀ i, (c.processStream spare polling id).1 ≠ .ok (i, .finished) := fun i => nf_loop i
  refine ⟨?_, hn⟩
  have ho : ∀ j, (c.processStream spare polling id).2.over j = c.over j := by
    intro j
    by_cases e : j = id
    · subst e
      cases h : c.over j with
      | true => rw [processStream_over h]; exact h
      | false =>
        cases h' : (c.processStream spare polling j).2.over j with
        | false => rfl
        | true => rw [hm.over j h'] at h; cases h
    · exact hm.other j e
  exact .same (fun i h => hn i (Option.some.inj h)) hm.lf ho hm.fin

/-! ### Ends -/

theorem lf_remove (c : C) (id j : Nat) : (c.remove id).lf j = if j = id then false else c.lf j := by
  unfold C.lf
  by_cases e : j = id
  · subst e; rw [show (c.remove j).streams j = none from upd_same _ _ _, if_pos rfl]
  · rw [show (c.remove id).streams j = c.streams j from upd_other _ _ e, if_neg e]

theorem over_remove (c : C) (id j : Nat) : (c.remove id).over j = if j = id then false else c.over j := by
  unfold C.over
  by_cases e : j = id
  · subst e; rw [show (c.remove j).streams j = none from upd_same _ _ _, if_pos rfl]
  · rw [show (c.remove id).streams j = c.streams j from upd_other _ _ e, if_neg e]

theorem none_ends : ∀ i : Nat, (none : Option Res) ≠ some (.ok (i, .finished)) := fun _ h => by cases h

theorem fx_remove {c : C} {id : Nat} (h : c.lf id = true ∨ c.over id = false) : Fx c none (c.remove id) := by
  refine ⟨fun j => ⟨fun e => ?_, fun e o => ?_, fun e => ?_⟩, fun k j => ?_⟩
  · rw [lf_remove]; split
    · rfl
    · exact e
  · rw [over_remove]; split
    · rename_i hj; subst hj
      rcases h with h | h
      · rw [h] at e; cases e
      · rw [h] at o; cases o
    · exact o
  · rw [over_remove]; split
    · rename_i hj; subst hj
      rcases h with h | h
      · rw [h] at e; cases e
      · rw [h]; show _ + c.finished.count j + _ ≤ _; rw [ends_not none_ends]; simp
    · show _ + c.finished.count j + _ ≤ _; rw [ends_not none_ends]; omega
  · rw [over_remove, lf_remove]
    split
    · exact fun h => by cases h
    · exact k j

theorem lf_some {c : C} {id : Nat} {s : Strm} (h : c.streams id = some s) : c.lf id = s.localFinished := by
  unfold C.lf; rw [h]
theorem over_some {c : C} {id : Nat} {s : Strm} (h : c.streams id = some s) : c.over id = (s.state == .finished) := by
  unfold C.over; rw [h]

theorem removeLocalFinished_fx {c : C} {id : Nat} : Fx c none (c.removeLocalFinished id) := by
  unfold C.removeLocalFinished
  split
  · rename_i s hs
    split
    · rename_i hl
      exact fx_remove (.inl (by rw [lf_some hs]; exact hl))
    · exact .streams none_ends rfl rfl
  · exact .streams none_ends rfl rfl

theorem removeLocalFinished_lf (c : C) (id : Nat) : (c.removeLocalFinished id).lf id = false := by
  unfold C.removeLocalFinished
  split
  · rename_i s hs
    split
    · rw [lf_remove, if_pos rfl]
    · rename_i hl
      rw [lf_some hs]; simpa using hl
  · rename_i hs
    unfold C.lf; rw [hs]

theorem processFinished_fx {c : C} {id : Nat} : Fx c none (c.processFinished id) := by
  unfold C.processFinished
  split
  · exact .streams none_ends rfl rfl
  rename_i s hs
  split
  · exact .streams none_ends rfl rfl
  rename_i hst
  have hov : c.over id = false := by rw [over_some hs]; simpa using hst
  have key : Fx c none { c.setStrm id s.finish with finished := c.finished ++ [id] } := by
    have h1 : ∀ j, (({ c.setStrm id s.finish with finished := c.finished ++ [id] } : C)).lf j = c.lf j := by
      intro j
      unfold C.lf
      by_cases e : j = id
      · subst e
        rw [show ({ c.setStrm j s.finish with finished := c.finished ++ [j] } : C).streams j = some s.finish from upd_same _ _ _, hs]
        rfl
      · rw [show ({ c.setStrm id s.finish with finished := c.finished ++ [id] } : C).streams j = c.streams j from upd_other _ _ e]
    have h2 : ∀ j, (({ c.setStrm id s.finish with finished := c.finished ++ [id] } : C)).over j = if j = id then true else c.over j := by
      intro j
      unfold C.over
      by_cases e : j = id
      · subst e
        rw [show ({ c.setStrm j s.finish with finished := c.finished ++ [j] } : C).streams j = some s.finish from upd_same _ _ _, if_pos rfl]
        rfl
      · rw [show ({ c.setStrm id s.finish with finished := c.finished ++ [id] } : C).streams j = c.streams j from upd_other _ _ e, if_neg e]
    refine ⟨fun j => ⟨fun e => by rw [h1]; exact e, fun _ o => ?_, fun _ => ?_⟩, fun k j => ?_⟩
    · rw [h2]; split
      · rfl
      · exact o
    · rw [h2, ends_not none_ends]
      show 0 + (c.finished ++ [id]).count j + _ ≤ _
      rw [List.count_append, List.count_singleton]
      by_cases e : j = id
      · subst e; rw [hov]; simp
      · have : (id == j) = false := by simpa using fun h => e h.symm
        rw [this, if_neg e]; simp
    · rw [h1, h2]
      intro a b
      show j ∈ c.finished ++ [id]
      by_cases e : j = id
      · subst e; simp
      · rw [if_neg e] at a
        exact List.mem_append_left _ (k j a b)
  split
  · exact key
  · exact key
  · exact fx_remove (.inr hov)
  · exact fx_remove (.inr hov)
  · exact .streams none_ends rfl rfl
  · exact .streams none_ends rfl rfl
  · exact .streams none_ends rfl rfl

theorem finishIf_fx {c : C} {id : Nat} : Fx c none (c.finishIf id) := by
  unfold C.finishIf
  split
  · exact processFinished_fx
  · exact .streams none_ends rfl rfl

theorem removeLocalFinished_other (c : C) {id j : Nat} (h : j ≠ id) :
    (c.removeLocalFinished id).streams j = c.streams j := by
  unfold C.removeLocalFinished
  split
  · split
    · exact upd_other _ _ h
    · rfl
  · rfl

theorem removeLocalFinished_fin (c : C) (id : Nat) : (c.removeLocalFinished id).finished = c.finished := by
  unfold C.removeLocalFinished
  split
  · split <;> rfl
  · rfl

theorem finishedEvent_streams (c : C) (id : Nat) : (c.finishedEvent id).2.streams = c.streams ∧
    (c.finishedEvent id).2.finished = c.finished := by
  unfold C.finishedEvent
  split
  · split <;> exact ⟨rfl, rfl⟩
  · exact ⟨rfl, rfl⟩

theorem popOr_fx {k : C → Res × C} (hk : ∀ c, Fx c (some (k c).1) (k c).2) (c : C) :
    Fx c (some (C.popOr k c).1) (C.popOr k c).2 := by
  unfold C.popOr C.popFinished
  split
  · rename_i ev c' hx
    split at hx
    · cases hx
    rename_i id l hf
    have h1 := removeLocalFinished_fx (c := { c with finished := l }) (id := id)
    have h2 := removeLocalFinished_lf { c with finished := l } id
    have h3 := fun j => removeLocalFinished_other { c with finished := l } (id := id) (j := j)
    have h4 := removeLocalFinished_fin { c with finished := l } id
    have h5 := finishedEvent_streams (({ c with finished := l } : C).removeLocalFinished id) id
    generalize hg : ({ c with finished := l } : C).removeLocalFinished id = c2 at hx h1 h2 h3 h4 h5
    cases hy : c2.finishedEvent id with
    | mk e c3 =>
    rw [hy] at hx h5
    cases hx
    have hlf : ∀ j, c'.lf j = c2.lf j := fun j => by unfold C.lf; rw [h5.1]
    have hov : ∀ j, c'.over j = c2.over j := fun j => by unfold C.over; rw [h5.1]
    refine ⟨fun j => ?_, fun kp j => ?_⟩
    · obtain ⟨a1, a2, a3⟩ := h1.strm j
      refine ⟨fun e => by rw [hlf]; exact a1 e, fun e o => by rw [hov]; exact a2 e o, fun e' => ?_⟩
      have a3 : ends j none + c2.finished.count j + (c.over j).toNat ≤ l.count j + (c2.over j).toNat := a3 e'
      rw [hov, h5.2, hf, List.count_cons]
      rw [ends_not none_ends] at a3
      unfold ends
      by_cases e : id = j
      · subst e
        simp only [beq_self_eq_true, if_true]
        split <;> omega
      · rw [if_neg (by intro h; cases h; exact e rfl)]
        omega
    · rw [hov, hlf, h5.2, h4]
      by_cases e : j = id
      · subst e; rw [h2]; exact fun _ h => by cases h
      · intro o f
        have ho : c.over j = true := by
          unfold C.over at o ⊢; rw [h3 j e] at o; exact o
        have hl : c.lf j = true := by
          unfold C.lf at f ⊢; rw [h3 j e] at f; exact f
        have := kp j ho hl
        rw [hf] at this
        exact (List.mem_cons.mp this).resolve_left e
  · rename_i c' hx
    split at hx
    · cases hx; exact hk _
    · cases hx

theorem fx_done {a b : C} {e : Err} (h : Fx a (some (.error e)) b) : Fx a none b :=
  ⟨fun j => by have := h.strm j; rw [ends_error] at this; rw [ends_not none_ends]; exact this, h.kept⟩

theorem Fx.post {a b c : C} {res : Option Res} (h : Fx a res b) (g : Fx b none c) : Fx a res c := by
  refine ⟨fun j => ⟨fun e => (g.strm j).lf ((h.strm j).lf e), fun e o => (g.strm j).over ((h.strm j).lf e) ((h.strm j).over e o), fun e => ?_⟩,
    fun k => g.kept (h.kept k)⟩
  have h1 := (h.strm j).count e
  have h2 := (g.strm j).count ((h.strm j).lf e)
  rw [ends_not none_ends] at h2
  omega

theorem readLoop_fx {spare : Nat → Nat → Nat} {k : C → Res × C} (hk : ∀ c, Fx c (some (k c).1) (k c).2) :
    ∀ (l : List Nat) (c : C), Fx c (some (C.readLoop spare k l c).1) (C.readLoop spare k l c).2 := by
  intro l
  induction l with
  | nil => exact hk
  | cons id l ih =>
    intro c
    obtain ⟨h1, h2⟩ := processStream_fx (spare := spare) (polling := true) (id := id) (c := c)
    unfold C.readLoop
    split
    · rename_i ev c1 hx
      rw [hx] at h1
      exact h1.post finishIf_fx
    · rename_i c1 hx
      rw [hx] at h1
      exact ((fx_done h1).trans finishIf_fx).trans (ih _)
    · rename_i x c1 hx
      rw [hx] at h1
      have h3 := (fx_done h1).trans (removeLocalFinished_fx (c := c1) (id := id))
      refine ⟨fun j => ?_, h3.kept⟩
      have := h3.strm j
      rw [ends_not none_ends] at this
      rw [ends_not (fun i h => by cases h)]
      exact this
    · rename_i e c1 _ _ hx
      rw [hx] at h1
      exact h1

theorem resFailed_fx {c : C} {e : Err} : Fx c (some (resFailed (c.fail e)).1) (resFailed (c.fail e)).2 := by
  have hm : Mild 0 c (c.fail e).2 := mild_fail c e
  refine .streams (fun i h => by cases h) ?_ hm.fin
  unfold resFailed C.fail C.closeWith C.close
  cases h : (c.dead || c.localErr.isSome) with
  | true => rw [if_pos rfl]
  | false => rw [if_neg (by decide)]

theorem processControl_fx {spare : Nat → Nat → Nat} {c : C} {id : Nat} :
    Fx c (some (c.processControl spare id).1) (c.processControl spare id).2 := by
  unfold C.processControl
  split
  · exact resFailed_fx
  split
  · exact .streams (fun i h => by cases h) rfl rfl
  obtain ⟨h1, h2⟩ := processStream_fx (spare := spare) (polling := true) (id := id) (c := c)
  split
  · rename_i c1 hx
    rw [hx] at h1
    split
    · exact (fx_done h1).trans resFailed_fx
    · exact h1
  · exact h1

theorem control_fx {spare : Nat → Nat → Nat} {sel : C → Option Nat} {k : C → Res × C}
    (hk : ∀ c, Fx c (some (k c).1) (k c).2) (c : C) :
    Fx c (some (C.control spare sel k c).1) (C.control spare sel k c).2 := by
  unfold C.control
  split
  · exact hk c
  · rename_i id _
    have h1 := processControl_fx (spare := spare) (c := c) (id := id)
    split
    · rename_i c1 hx
      rw [hx] at h1
      exact (fx_done h1).trans (hk c1)
    · exact h1

theorem poll_fx {spare : Nat → Nat → Nat} {rs : List Nat} {c : C} : Fx c (some (c.poll spare rs).1) (c.poll spare rs).2 := by
  unfold C.poll
  split
  · exact .streams (fun i h => by cases h) rfl rfl
  · exact control_fx (control_fx (control_fx (popOr_fx (readLoop_fx (popOr_fx
      (fun c => .streams (fun i h => by cases h) rfl rfl)) rs)))) c

/-! ### Bodies -/

theorem put_fx {c : C} {id : Nat} {s s' : Strm} {r : Rx} (hs : c.streams id = some s) (h1 : s'.localFinished = s.localFinished)
    (h2 : s'.state = .finished ↔ s.state = .finished) : Fx c none (c.put id s' r) := by
  refine .same none_ends (fun j => ?_) (fun j => ?_) rfl
  · by_cases e : j = id
    · subst e; rw [lf_some hs, lf_some (put_strm _ _ _ _), h1]
    · unfold C.lf; rw [show (c.put id s' r).streams j = c.streams j from upd_other _ _ e]
  · by_cases e : j = id
    · subst e; rw [over_some hs, over_some (put_strm _ _ _ _)]
      rw [Bool.eq_iff_iff]; simpa using h2
    · unfold C.over; rw [show (c.put id s' r).streams j = c.streams j from upd_other _ _ e]

theorem bodyLoop_fx {spare : Nat → Nat → Nat} {id : Nat} : ∀ {k n : Nat} {got : Bytes} {c : C},
    Fx c none (C.bodyLoop spare id k n got c).2 := by
  intro k
  induction k with
  | zero => intro n got c; exact .streams none_ends rfl rfl
  | succ k ih =>
    intro n got c
    unfold C.bodyLoop
    split
    · exact finishIf_fx
    split
    · exact .streams none_ends rfl rfl
    rename_i s hs
    split
    · exact finishIf_fx
    rename_i hst
    have hst : s.state = .data := Classical.byContradiction hst
    have hm := tryData_mild (s := s) (r := c.rx id) (n := n)
    have hp : ∀ {f s' r'}, s.tryData (c.rx id) n = (f, s', r') → Fx c none (c.put id s' r') := by
      intro f s' r' hx
      rw [hx] at hm
      refine put_fx hs hm.1 ⟨fun e => hm.2 e, fun e => by rw [hst] at e; cases e⟩
    split
    · rename_i hx; exact (hp hx).trans finishIf_fx
    · rename_i hx; exact hp hx
    · rename_i bs fin s' r' hx
      split
      · exact (hp hx).trans finishIf_fx
      obtain ⟨h1, hnf⟩ := processStream_fx (spare := spare) (polling := false) (id := id) (c := c.put id s' r')
      have h2 := hp hx
      split
      · rename_i ev c1 hy
        rw [hy] at h1 hnf
        refine h2.trans ⟨fun j => ?_, h1.kept⟩
        have := h1.strm j
        rw [ends_not (fun i h => hnf i (Option.some.inj h))] at this
        rw [ends_not none_ends]; exact this
      · rename_i c1 hy
        rw [hy] at h1
        split
        · exact (h2.trans (fx_done h1)).trans finishIf_fx
        · exact (h2.trans (fx_done h1)).trans ih
      · rename_i e c1 _ hy
        rw [hy] at h1
        exact h2.trans (fx_done h1)

/-! ### Executions -/

theorem Match.not_finished {limit id : Nat} {peer : Bool} {s : Strm} {bs : Bytes} {out : List Out}
    (h : Match limit id peer s bs out) : s.state ≠ .finished := by
  cases h with
  | other _ h2 => rcases h2 with h2 | h2 <;> (rw [h2]; exact fun e => by cases e)
  | start _ h2 | ft _ h2 | fl _ h2 | fp _ h2 | sk _ h2 | da _ h2 => rw [h2]; exact fun e => by cases e

variable {cf : Bool × Option Nat}

theorem W.Inv.over {w : W} (h : w.Inv cf) {id : Nat} (ho : w.c.over id = true) :
    w.used id = true ∧ (w.c.localErr = none → (w.c.rx id).finished = true) := by
  have hc : (w.c.cur id).state = .finished := by
    unfold C.over at ho
    unfold C.cur
    split at ho
    · rename_i s hs; rw [hs]; simpa using ho
    · cases ho
  rcases h.mode id with ⟨_, o⟩ | ⟨a, o⟩
  · have := o.entry.state
    rw [hc] at this
    exact absurd this.symm (new_state _ _ _ _).1
  · refine ⟨a, fun hn => ?_⟩
    rcases o with o | o | o
    · obtain ⟨k, _, m, _⟩ := o.hist
      exact absurd hc m.not_finished
    · exact o.fin
    · have := o.lerr; rw [hn] at this; cases this

theorem res_body {id : Nat} {x : Except Err Nat} : ∀ i, some (bodyRes id x) ≠ some (.ok (i, .finished)) := by
  intro i h
  cases x <;> cases h

theorem setPrio_fx {c : C} {id : Nat} {s : Strm} (hs : c.streams id = some s) :
    Fx c none (c.setStrm id { s with lastPrio := none }) :=
  (put_fx (r := c.rx id) (s' := { s with lastPrio := none }) hs rfl Iff.rfl).trans
    (.streams (c' := c.setStrm id { s with lastPrio := none }) none_ends rfl rfl)

/-- Every action but one on the local half of the stream. -/
theorem step_r {w : W} (h : w.Inv cf) {a : Act} {j : Nat} (ha : a ≠ .finishLocal j) :
    R j w.c (ends j (w.res a)) (w.step a).c := by
  have hsame : R j w.c (ends j none) w.c := (Fx.streams none_ends rfl rfl).strm j
  have hrx : ∀ id r, R j w.c (ends j none) (w.c.setRx id r) := fun id r =>
    (Fx.streams (c := w.c) (c' := w.c.setRx id r) none_ends rfl rfl).strm j
  cases a with
  | opened id =>
    simp only [W.step, W.res]
    split
    · exact hrx _ _
    · exact hsame
  | arrive id bs fin =>
    simp only [W.step, W.res]
    split
    · exact hrx _ _
    · exact hsame
  | reset id code =>
    simp only [W.step, W.res]
    split
    · exact hrx _ _
    · exact hsame
  | sent id =>
    simp only [W.step, W.res]
    split
    · exact hrx _ _
    · exact hsame
  | request id =>
    simp only [W.step, W.res]
    split
    · rename_i hc
      simp only [Bool.and_eq_true, Bool.not_eq_true'] at hc
      by_cases e : j = id
      · subst e
        have ho : w.c.over j = false := by
          cases ho : w.c.over j with
          | false => rfl
          | true => have := (h.over ho).1; rw [hc.1.1] at this; cases this
        refine ⟨fun _ => ?_, (fun _ e => by rw [ho] at e; cases e), fun _ => ?_⟩
        · exact lf_some (put_strm _ _ _ _)
        · show ends j none + w.c.finished.count j + _ ≤ w.c.finished.count j + _
          rw [ho, ends_not none_ends]; simp
      · have hs : (w.c.request id).streams j = w.c.streams j := upd_other _ _ e
        have h1 : (w.c.request id).lf j = w.c.lf j := by unfold C.lf; rw [hs]
        have h2 : (w.c.request id).over j = w.c.over j := by unfold C.over; rw [hs]
        refine ⟨fun e => h1.trans e, fun _ e => h2.trans e, fun _ => ?_⟩
        show ends j none + w.c.finished.count j + _ ≤ w.c.finished.count j + _
        rw [h2, ends_not none_ends]; omega
    · exact hsame
  | finishLocal id =>
    have hj : j ≠ id := fun e => ha (by rw [e])
    simp only [W.step, W.res]
    split
    · have hs : (w.c.finishLocal id).streams j = w.c.streams j ∧ (w.c.finishLocal id).finished = w.c.finished := by
        unfold C.finishLocal
        split
        · exact ⟨rfl, rfl⟩
        split
        · exact ⟨upd_other _ _ hj, rfl⟩
        · exact ⟨upd_other _ _ hj, rfl⟩
      have h1 : (w.c.finishLocal id).lf j = w.c.lf j := by unfold C.lf; rw [hs.1]
      have h2 : (w.c.finishLocal id).over j = w.c.over j := by unfold C.over; rw [hs.1]
      refine ⟨fun e => h1.trans e, fun _ e => h2.trans e, fun _ => ?_⟩
      show ends j none + (w.c.finishLocal id).finished.count j + _ ≤ w.c.finished.count j + _
      rw [h2, hs.2, ends_not none_ends]; omega
    · exact hsame
  | takePrio id =>
    simp only [W.step, W.res]
    unfold C.takePrio
    split
    · exact hsame
    · rename_i s hs
      exact (setPrio_fx hs).strm j
  | poll spare rs => exact poll_fx.strm j
  | body spare id n =>
    simp only [W.step, W.res]
    split
    · rw [ends_not res_body]
      have := (bodyLoop_fx (spare := spare) (id := id) (k := (w.c.rx id).avail.length + 2) (n := n) (got := []) (c := w.c)).strm j
      rw [ends_not none_ends] at this
      exact this
    · exact hsame

theorem step_kept {w : W} (h : w.Inv cf) (hn : w.c.localErr = none) (hk : Kept w.c) (a : Act) : Kept (w.step a).c := by
  cases a with
  | opened id => simp only [W.step]; split <;> exact hk
  | arrive id bs fin => simp only [W.step]; split <;> exact hk
  | reset id code => simp only [W.step]; split <;> exact hk
  | sent id => simp only [W.step]; split <;> exact hk
  | request id =>
    simp only [W.step]
    split
    · intro j ho hl
      show j ∈ w.c.finished
      by_cases e : j = id
      · subst e
        have h1 : (w.c.request j).over j = _ := over_some (put_strm _ _ _ _)
        have ho : (w.c.request j).over j = true := ho
        rw [h1] at ho
        exact absurd (by simpa using ho) (new_state _ _ _ _).1
      · have hs : (w.c.request id).streams j = w.c.streams j := upd_other _ _ e
        refine hk j ?_ ?_
        · have ho : (w.c.request id).over j = true := ho
          unfold C.over at ho ⊢; rw [← hs]; exact ho
        · have hl : (w.c.request id).lf j = true := hl
          unfold C.lf at hl ⊢; rw [← hs]; exact hl
    · exact hk
  | finishLocal id =>
    simp only [W.step]
    split
    · unfold C.finishLocal
      split
      · exact hk
      rename_i s hs
      split
      · intro j
        show (w.c.remove id).over j = true → (w.c.remove id).lf j = true → j ∈ w.c.finished
        rw [over_remove, lf_remove]
        split
        · exact fun h => by cases h
        · exact hk j
      · rename_i hf
        intro j ho hl
        show j ∈ w.c.finished
        by_cases e : j = id
        · subst e
          rw [over_some (upd_same _ _ _)] at ho
          have : w.c.over j = true := by rw [over_some hs]; exact ho
          exact absurd ((h.over this).2 hn) hf
        · refine hk j ?_ ?_
          · unfold C.over at ho ⊢
            rw [show (w.c.setStrm id { s with localInit := true, localFinished := true }).streams j = w.c.streams j from upd_other _ _ e] at ho
            exact ho
          · unfold C.lf at hl ⊢
            rw [show (w.c.setStrm id { s with localInit := true, localFinished := true }).streams j = w.c.streams j from upd_other _ _ e] at hl
            exact hl
    · exact hk
  | takePrio id =>
    simp only [W.step]
    unfold C.takePrio
    split
    · exact hk
    · rename_i s hs
      exact (setPrio_fx hs).kept hk
  | poll spare rs => exact poll_fx.kept hk
  | body spare id n =>
    simp only [W.step]
    split
    · exact (bodyLoop_fx (spare := spare) (id := id) (k := (w.c.rx id).avail.length + 2) (n := n) (got := []) (c := w.c)).kept hk
    · exact hk

end Verif.H3
