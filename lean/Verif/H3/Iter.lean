import Verif.H3.Match
import Verif.H3.Run
import Verif.Qpack.Section

/-! An iteration of the loop over a stream keeps the state explained by the bytes read. -/

namespace Verif.H3
open Verif

/-! ### Bookkeeping -/

theorem upd_same {α : Type} (f : Nat → α) (i : Nat) (a : α) : upd f i a i = a := by simp [upd]
theorem upd_other {α : Type} (f : Nat → α) {i j : Nat} (a : α) (h : j ≠ i) : upd f i a j = f j := by
  simp [upd, h]
theorem upd_upd {α : Type} (f : Nat → α) (i : Nat) (a b : α) : upd (upd f i a) i b = upd f i b := by
  funext j; simp only [upd]; split <;> rfl

theorem put_setStrm (c : C) (id : Nat) (s t : Strm) (r : Rx) : (c.put id s r).setStrm id t = c.put id t r := by
  unfold C.put C.setStrm C.setRx
  simp only [upd_upd]

theorem setStrm_setStrm (c : C) (id : Nat) (s t : Strm) : (c.setStrm id s).setStrm id t = c.setStrm id t := by
  unfold C.setStrm
  simp only [upd_upd]

theorem put_strm (c : C) (id : Nat) (s : Strm) (r : Rx) : (c.put id s r).streams id = some s := by
  simp [C.put, C.setStrm, C.setRx, upd]

theorem put_rx (c : C) (id : Nat) (s : Strm) (r : Rx) : (c.put id s r).rx id = r := by
  simp [C.put, C.setStrm, C.setRx, upd]

/-- The stream, or the one that would be made. -/
def C.cur (c : C) (id : Nat) : Strm := (c.streams id).getD (c.fresh id)

theorem cur_setStrm (c : C) (id : Nat) (s : Strm) : (c.setStrm id s).cur id = s := by
  simp [C.cur, C.setStrm, upd]

theorem cur_put (c : C) (id : Nat) (s : Strm) (r : Rx) : (c.put id s r).cur id = s := by
  simp [C.cur, put_strm]

theorem cur_some {c : C} {id : Nat} {s : Strm} (h : c.streams id = some s) : c.cur id = s := by
  simp [C.cur, h]

/-- The limit for header lists. -/
def C.limit (c : C) : Nat := c.maxField.getD (2 ^ 64 - 1)

/-- `c'` differs from `c` by processing of the stream `id`. -/
structure Eff (id : Nat) (c c' : C) : Prop where
  isServer : c'.isServer = c.isServer
  maxField : c'.maxField = c.maxField
  maxPrio : c'.maxPrio = c.maxPrio
  dead : c'.dead = c.dead
  finished : c'.finished = c.finished
  lerr : c.localErr.isSome = true → c'.localErr = c.localErr
  rx : ∀ j, j ≠ id → c'.rx j = c.rx j
  all : (c'.rx id).all = (c.rx id).all
  err : (c'.rx id).err = (c.rx id).err
  fin : (c'.rx id).fin = (c.rx id).fin
  gone : (c.rx id).gone = true → (c'.rx id).gone = true
  strm : ∀ j, j ≠ id → SameCore (c'.cur j) (c.cur j) ∧ (c.streams j ≠ none → c'.streams j ≠ none)
  some : c.streams id ≠ none → c'.streams id ≠ none
  off : (c.rx id).off ≤ (c'.rx id).off

theorem Eff.refl (id : Nat) (c : C) : Eff id c c :=
  ⟨rfl, rfl, rfl, rfl, rfl, fun _ => rfl, fun _ _ => rfl, rfl, rfl, rfl, fun h => h,
    fun _ _ => ⟨.refl _, fun h => h⟩, fun h => h, Nat.le_refl _⟩

theorem Eff.trans {id : Nat} {a b c : C} (h : Eff id a b) (g : Eff id b c) : Eff id a c where
  isServer := g.1.trans h.1
  maxField := g.2.trans h.2
  maxPrio := g.3.trans h.3
  dead := g.4.trans h.4
  finished := g.5.trans h.5
  lerr := fun e => by
    have := h.lerr e
    rw [← this]
    exact g.lerr (by rw [this]; exact e)
  rx := fun j hj => (g.rx j hj).trans (h.rx j hj)
  all := g.all.trans h.all
  err := g.err.trans h.err
  fin := g.fin.trans h.fin
  gone := fun e => g.gone (h.gone e)
  strm := fun j hj => ⟨(g.strm j hj).1.trans (h.strm j hj).1,
    fun e => (g.strm j hj).2 ((h.strm j hj).2 e)⟩
  some := fun e => g.some (h.some e)
  off := Nat.le_trans h.off g.off

theorem eff_put {id : Nat} {c : C} {s : Strm} {r : Rx} {bs : Bytes} (h : Rd (c.rx id) r bs) :
    Eff id c (c.put id s r) where
  isServer := rfl
  maxField := rfl
  maxPrio := rfl
  dead := rfl
  finished := rfl
  lerr := fun _ => rfl
  rx := fun j hj => upd_other _ _ hj
  all := by rw [put_rx]; exact h.all
  err := by rw [put_rx]; exact h.err
  fin := by rw [put_rx]; exact h.fin
  gone := fun e => by rw [put_rx]; exact h.gone e
  strm := fun j hj => by
    have : (c.put id s r).streams j = c.streams j := upd_other _ _ hj
    unfold C.cur
    rw [this]
    exact ⟨.refl _, fun h => h⟩
  some := fun _ => by rw [put_strm]; simp
  off := by rw [put_rx, h.off]; omega

theorem eff_setRx {id : Nat} {c : C} {r : Rx} {bs : Bytes} (h : Rd (c.rx id) r bs) :
    Eff id c (c.setRx id r) where
  isServer := rfl
  maxField := rfl
  maxPrio := rfl
  dead := rfl
  finished := rfl
  lerr := fun _ => rfl
  rx := fun j hj => upd_other _ _ hj
  all := by simp only [C.setRx, upd_same]; exact h.all
  err := by simp only [C.setRx, upd_same]; exact h.err
  fin := by simp only [C.setRx, upd_same]; exact h.fin
  gone := fun e => by simp only [C.setRx, upd_same]; exact h.gone e
  strm := fun j _ => ⟨.refl _, fun h => h⟩
  some := fun h => h
  off := by simp only [C.setRx, upd_same]; rw [h.off]; omega

/-- Only fields that are not about streams, nor about the transport, are different. -/
theorem eff_same {id : Nat} {c c' : C} (h1 : c'.isServer = c.isServer) (h2 : c'.maxField = c.maxField)
    (h3 : c'.maxPrio = c.maxPrio) (h4 : c'.dead = c.dead) (h5 : c'.finished = c.finished)
    (h6 : c.localErr.isSome = true → c'.localErr = c.localErr) (h7 : c'.rx = c.rx)
    (h8 : c'.streams = c.streams) : Eff id c c' := by
  have hc : ∀ j, c'.cur j = c.cur j := fun j => by unfold C.cur C.fresh; rw [h8, h2, h3]
  exact ⟨h1, h2, h3, h4, h5, h6, fun j _ => by rw [h7], by rw [h7], by rw [h7], by rw [h7],
    by rw [h7]; exact fun h => h, fun j _ => ⟨by rw [hc]; exact .refl _, by rw [h8]; exact fun h => h⟩,
    by rw [h8]; exact fun h => h, by rw [h7]; exact Nat.le_refl _⟩

/-- Setting the stream of another identifier, to one with the same content. -/
theorem eff_setStrm {id j : Nat} {c : C} {s : Strm} (h : SameCore s (c.cur j)) : Eff id c (c.setStrm j s) where
  isServer := rfl
  maxField := rfl
  maxPrio := rfl
  dead := rfl
  finished := rfl
  lerr := fun _ => rfl
  rx := fun _ _ => rfl
  all := rfl
  err := rfl
  fin := rfl
  gone := fun e => e
  off := Nat.le_refl _
  strm := fun i hi => by
    by_cases e : i = j
    · subst e
      have : (c.setStrm i s).streams i = some s := upd_same _ _ _
      unfold C.cur
      rw [this]
      exact ⟨h, fun _ => by simp⟩
    · have : (c.setStrm j s).streams i = c.streams i := upd_other _ _ e
      unfold C.cur
      rw [this]
      exact ⟨.refl _, fun h => h⟩
  some := fun e => by
    by_cases hj : id = j
    · subst hj
      simp [C.setStrm, upd]
    · have : (c.setStrm j s).streams id = c.streams id := upd_other _ _ hj
      rw [this]; exact e

/-! ### Failing -/

/-- Errors that close the connection. -/
def Err.hard : Err → Bool
  | .done | .panic | .streamReset _ => false
  | _ => true

theorem Err.hard_done {e : Err} (h : e.hard = true) : e ≠ .done := by rintro rfl; cases h
theorem Err.hard_panic {e : Err} (h : e.hard = true) : e ≠ .panic := by rintro rfl; cases h
theorem Err.hard_reset {e : Err} (h : e.hard = true) (x : Nat) : e ≠ .streamReset x := by rintro rfl; cases h


theorem closeWith_spec (c : C) (hd : c.dead = false) (code : Nat) (e : Err) :
    (c.closeWith code e = (e, { c with localErr := some code }) ∧ c.localErr = none) ∨
    (c.closeWith code e = (.done, c) ∧ c.localErr.isSome = true) := by
  unfold C.closeWith C.close
  cases h : c.localErr with
  | none => left; simp [hd]
  | some x => right; simp

/-- Failing closes the connection, unless it has been closed. -/
theorem fail_spec {id : Nat} {c c' : C} {code : Nat} {e e' : Err} (hd : c.dead = false)
    (h : c.closeWith code e = (e', c')) :
    Eff id c c' ∧ c'.localErr.isSome = true ∧ c'.streams = c.streams ∧ c'.rx = c.rx ∧
      (e' = e ∧ c.localErr = none ∨ e' = .done ∧ c.localErr.isSome = true) := by
  rcases closeWith_spec c hd code e with ⟨g, hl⟩ | ⟨g, hl⟩
  · rw [h] at g
    cases g
    refine ⟨eff_same rfl rfl rfl rfl rfl (fun x => ?_) rfl rfl, rfl, rfl, rfl, .inl ⟨rfl, hl⟩⟩
    rw [hl] at x; cases x
  · rw [h] at g
    cases g
    exact ⟨.refl _ _, hl, rfl, rfl, .inr ⟨rfl, hl⟩⟩

/-! ### Frames -/

/-- What processing a frame does, and may give. -/
structure FrameEff (id : Nat) (c c' : C) (f : Frame) (res : Res) : Prop where
  eff : Eff id c c'
  rx : c'.rx = c.rx
  cur : SameCore (c'.cur id) (c.cur id)
  outcome : (res = .error .done ∧ c'.localErr = c.localErr ∧ (∀ b, f ≠ .headers b) ∧
        (∀ i b, f = .pushPromise i b → c.peerStream id = false)) ∨
      (∃ e, res = .error e ∧ e.hard = true ∧ c'.localErr.isSome = true) ∨
      (∃ b hs more, f = .headers b ∧ res = .ok (id, .headers hs more) ∧ c'.localErr = c.localErr ∧
        Qpack.decode b c.limit = .ok hs) ∨
      (∃ g, f = .goAway g ∧ res = .ok (g, .goAway) ∧ c'.localErr = c.localErr) ∨
      (∃ el v, f = .prioRequest el v ∧ res = .ok (el, .priorityUpdate) ∧ c'.localErr = c.localErr)

theorem failed_eff {id : Nat} {c c' : C} {f : Frame} {res : Res} {code : Nat} {e : Err}
    (hd : c.dead = false) (hl : c.localErr = none) (he : e.hard = true)
    (h : resFailed (c.closeWith code e) = (res, c')) : FrameEff id c c' f res := by
  cases hx : c.closeWith code e with
  | mk e1 c1 =>
    rw [hx] at h
    obtain ⟨h1, h2, h3, h4, h5⟩ := fail_spec (id := id) hd hx
    unfold resFailed at h
    cases h
    rcases h5 with ⟨rfl, _⟩ | ⟨_, h5⟩
    · refine ⟨h1, h4, ?_, .inr (.inl ⟨_, rfl, he, h2⟩)⟩
      unfold C.cur C.fresh
      rw [h3, h1.maxField, h1.maxPrio]
      exact .refl _
    · rw [hl] at h5; cases h5

theorem qpackErr_ne (e : Qpack.Err) (h : e ≠ .panic) : (qpackErr e).hard = true := by
  cases e <;> simp [qpackErr, Err.hard] at h ⊢

theorem eff_rx {id : Nat} {c c' : C} (h : Eff id c c') (g : ∀ j, c'.cur j = c.cur j) (j : Nat) :
    SameCore (c'.cur j) (c.cur j) := by rw [g]; exact .refl _

/-- Nothing that counts is different. -/
theorem frameEff_same {id : Nat} {c c' : C} {f : Frame} {res : Res} (h1 : c'.isServer = c.isServer)
    (h2 : c'.maxField = c.maxField) (h3 : c'.maxPrio = c.maxPrio) (h4 : c'.dead = c.dead)
    (h5 : c'.finished = c.finished) (h6 : c'.localErr = c.localErr) (h7 : c'.rx = c.rx)
    (h8 : c'.streams = c.streams)
    (ho : (res = .error .done ∧ (∀ b, f ≠ .headers b) ∧
        (∀ i b, f = .pushPromise i b → c.peerStream id = false)) ∨
      (∃ g, f = .goAway g ∧ res = .ok (g, .goAway))) : FrameEff id c c' f res := by
  refine ⟨eff_same h1 h2 h3 h4 h5 (fun _ => h6) h7 h8, h7, ?_, ?_⟩
  · unfold C.cur C.fresh
    rw [h8, h2, h3]
    exact .refl _
  · rcases ho with ⟨a, b, d⟩ | ⟨g, a, b⟩
    · exact .inl ⟨a, h6, b, d⟩
    · exact .inr (.inr (.inr (.inl ⟨g, a, b, h6⟩)))

theorem storePrio_eff {id el : Nat} {c : C} {v : Bytes} {res : Res} {c' : C}
    (h : c.storePrio el v = (res, c')) : FrameEff id c c' (.prioRequest el v) res := by
  unfold C.storePrio at h
  have hs : SameCore { (c.streams el).getD (c.fresh el) with lastPrio := some v } (c.cur el) :=
    ⟨rfl, rfl, rfl, rfl, rfl, rfl, rfl, rfl, rfl, rfl, rfl, rfl⟩
  have he := eff_setStrm (id := id) hs
  have hcur : SameCore ((c.setStrm el { (c.streams el).getD (c.fresh el) with lastPrio := some v }).cur id) (c.cur id) := by
    by_cases e : id = el
    · subst e
      have : (c.setStrm id { (c.streams id).getD (c.fresh id) with lastPrio := some v }).streams id =
        some { (c.streams id).getD (c.fresh id) with lastPrio := some v } := upd_same _ _ _
      rw [C.cur, this]
      exact hs
    · have : (c.setStrm el { (c.streams el).getD (c.fresh el) with lastPrio := some v }).streams id =
        c.streams id := upd_other _ _ e
      unfold C.cur
      rw [this]
      exact .refl _
  dsimp only at h
  split at h
  · cases h
    exact ⟨he, rfl, hcur, .inr (.inr (.inr (.inr ⟨el, v, rfl, rfl, rfl⟩)))⟩
  · cases h
    refine ⟨he, rfl, hcur, .inl ⟨rfl, rfl, (fun b c => by cases c), (fun i b c => by cases c)⟩⟩

theorem countHeaders_eff {id : Nat} {c c1 : C} (h : c.countHeaders id = some c1) :
    Eff id c c1 ∧ c1.rx = c.rx ∧ SameCore (c1.cur id) (c.cur id) ∧ c1.localErr = c.localErr := by
  unfold C.countHeaders at h
  split at h
  · cases h; exact ⟨.refl _ _, rfl, .refl _, rfl⟩
  · rename_i s hs
    split at h
    · cases h
    · cases h
      have hc : c.cur id = s := by unfold C.cur; rw [hs]; rfl
      refine ⟨eff_setStrm (by rw [hc]; exact ⟨rfl, rfl, rfl, rfl, rfl, rfl, rfl, rfl, rfl, rfl, rfl, rfl⟩),
        rfl, ?_, rfl⟩
      rw [hc, cur_setStrm]
      exact ⟨rfl, rfl, rfl, rfl, rfl, rfl, rfl, rfl, rfl, rfl, rfl, rfl⟩

/-- `process_frame` on a connection that is not closed. -/
theorem processFrame_eff {id : Nat} {c c' : C} {f : Frame} {res : Res} (hd : c.dead = false)
    (hl : c.localErr = none) (h : c.processFrame id f = (res, c')) : FrameEff id c c' f res := by
  unfold C.processFrame at h
  cases f with
  | settings s =>
    dsimp only at h
    unfold C.onSettings at h
    dsimp only at h
    split at h
    · have := failed_eff (id := id) (f := .settings s) (c := { c with peerSettings := { s with grease := none } })
        hd hl (by decide) h
      have e0 : Eff id c { c with peerSettings := { s with grease := none } } :=
        eff_same rfl rfl rfl rfl rfl (fun _ => rfl) rfl rfl
      refine ⟨e0.trans this.eff, this.rx, this.cur, ?_⟩
      exact this.outcome
    · cases h
      exact frameEff_same rfl rfl rfl rfl rfl rfl rfl rfl
        (.inl ⟨rfl, (fun b c => by cases c), (fun i b c => by cases c)⟩)
  | headers b =>
    dsimp only at h
    unfold C.onHeaders at h
    split at h
    · exact failed_eff hd hl (by decide) h
    · rename_i c1 hc1
      obtain ⟨e1, e2, e3, e4⟩ := countHeaders_eff hc1
      have hlim : c1.maxField.getD (2 ^ 64 - 1) = c.limit := by rw [e1.maxField]; rfl
      split at h
      · rename_i hs hq
        cases h
        exact ⟨e1, e2, e3, .inr (.inr (.inl ⟨b, hs, _, rfl, rfl, e4, by rw [← hlim]; exact hq⟩))⟩
      · rename_i e hq
        have hne : e ≠ .panic := fun x => Qpack.decode_ne_panic _ _ (by rw [← x]; exact hq)
        have q1 := qpackErr_ne e hne
        have := failed_eff (id := id) (f := .headers b) (by rw [e1.dead]; exact hd)
          (by rw [e4]; exact hl) q1 h
        refine ⟨e1.trans this.eff, this.rx.trans e2, this.cur.trans e3, ?_⟩
        rcases this.outcome with ⟨_, _, hb, _⟩ | x | ⟨_, _, _, _, hr, _⟩ | ⟨_, hf, _⟩ | ⟨_, _, hf, _⟩
        · exact absurd rfl (hb b)
        · exact .inr (.inl x)
        · unfold resFailed at h
          rw [Prod.mk.injEq] at h
          rw [← h.1] at hr; cases hr
        · cases hf
        · cases hf
  | data b =>
    cases h
    exact frameEff_same rfl rfl rfl rfl rfl rfl rfl rfl
      (.inl ⟨rfl, (fun b c => by cases c), (fun i b c => by cases c)⟩)
  | goAway g =>
    dsimp only at h
    unfold C.onGoAway at h
    split at h
    · exact failed_eff hd hl (by decide) h
    · split at h
      · split at h
        · exact failed_eff hd hl (by decide) h
        · cases h
          exact frameEff_same rfl rfl rfl rfl rfl rfl rfl rfl (.inr ⟨g, rfl, rfl⟩)
      · cases h
        exact frameEff_same rfl rfl rfl rfl rfl rfl rfl rfl (.inr ⟨g, rfl, rfl⟩)
  | maxPushId p =>
    dsimp only at h
    unfold C.onMaxPushId at h
    split at h
    · exact failed_eff hd hl (by decide) h
    · split at h
      · exact failed_eff hd hl (by decide) h
      · cases h
        exact frameEff_same rfl rfl rfl rfl rfl rfl rfl rfl
          (.inl ⟨rfl, (fun b c => by cases c), (fun i b c => by cases c)⟩)
  | pushPromise i b =>
    dsimp only at h
    unfold C.onPushPromise at h
    split at h
    · exact failed_eff hd hl (by decide) h
    · rename_i hs
      split at h
      · exact failed_eff hd hl (by decide) h
      · rename_i hi
        cases h
        refine frameEff_same rfl rfl rfl rfl rfl rfl rfl rfl
          (.inl ⟨rfl, (fun b c => by cases c), fun _ _ _ => ?_⟩)
        have hs : c.isServer = false := by simpa using hs
        have hi : id % 4 = 0 := by simpa using hi
        unfold C.peerStream
        have : (id % 2 == 1) = false := by
          rw [beq_eq_false_iff_ne]; omega
        rw [hs, this]; rfl
  | cancelPush i =>
    cases h
    exact frameEff_same rfl rfl rfl rfl rfl rfl rfl rfl
      (.inl ⟨rfl, (fun b c => by cases c), (fun i b c => by cases c)⟩)
  | prioRequest el v =>
    dsimp only at h
    unfold C.onPrioRequest at h
    split at h
    · exact failed_eff hd hl (by decide) h
    split at h
    · exact failed_eff hd hl (by decide) h
    split at h
    · exact failed_eff hd hl (by decide) h
    split at h
    · cases h
      exact frameEff_same rfl rfl rfl rfl rfl rfl rfl rfl
        (.inl ⟨rfl, (fun b c => by cases c), (fun i b c => by cases c)⟩)
    · exact storePrio_eff h
  | prioPush el v =>
    dsimp only at h
    unfold C.onPrioPush at h
    split at h
    · exact failed_eff hd hl (by decide) h
    split at h
    · exact failed_eff hd hl (by decide) h
    · cases h
      exact frameEff_same rfl rfl rfl rfl rfl rfl rfl rfl
        (.inl ⟨rfl, (fun b c => by cases c), (fun i b c => by cases c)⟩)
  | unknown t b =>
    cases h
    exact frameEff_same rfl rfl rfl rfl rfl rfl rfl rfl
      (.inl ⟨rfl, (fun b c => by cases c), (fun i b c => by cases c)⟩)

/-! ### Integers -/

/-- The same, apart from the buffer. -/
structure SameRest (s t : Strm) : Prop where
  ty : s.ty = t.ty
  state : s.state = t.state
  frameType : s.frameType = t.frameType
  isLocal : s.isLocal = t.isLocal
  remoteInit : s.remoteInit = t.remoteInit
  dataReceived : s.dataReceived = t.dataReceived
  trailersReceived : s.trailersReceived = t.trailersReceived
  maxHeaders : s.maxHeaders = t.maxHeaders
  maxPrio : s.maxPrio = t.maxPrio

theorem SameRest.of_commit {s t : Strm} {bs : Bytes} (h : SameCore s (t.commit bs)) : SameRest s t :=
  ⟨h.ty, h.state, h.frameType, h.isLocal, h.remoteInit, h.dataReceived, h.trailersReceived,
    h.maxHeaders, h.maxPrio⟩

theorem fillLoop_critical {spare : Nat → Nat → Nat} : ∀ {k : Nat} {s : Strm} {r : Rx} {s' : Strm} {r' : Rx},
    Strm.fillLoop spare k s r = (.closedCritical, s', r') → s.critical = true := by
  intro k
  induction k with
  | zero => intro s r s' r' h; cases h
  | succ k ih =>
    intro s r s' r' h
    unfold Strm.fillLoop at h
    split at h
    · rename_i bs fin r1 hr
      split at h
      · rename_i hc
        rw [Bool.and_eq_true] at hc
        exact hc.2
      · split at h
        · split at h <;> cases h
        · split at h
          · cases h
          · have := ih h
            exact this
    · split at h
      · rename_i hc; exact hc
      · cases h
    · cases h
    · cases h

theorem tryFill_critical {spare : Nat → Nat → Nat} {s : Strm} {r : Rx} {s' : Strm} {r' : Rx}
    (h : s.tryFill spare r = (.closedCritical, s', r')) : s.critical = true := by
  unfold Strm.tryFill at h
  split at h
  · cases h
  · exact fillLoop_critical h

theorem parseLen_pos (b : UInt8) : 1 ≤ varintParseLen b := by
  have h : ∀ n : Nat, n < 256 → 1 ≤ varintParseLen (UInt8.ofNat n) := by decide +kernel
  have := h b.toNat (by have := b.toNat_lt; omega)
  rwa [UInt8.ofNat_toNat] at this

/-- An integer that is complete is decoded, one that is not is read on. -/
theorem tryVarint_spec {s : Strm} (ho : s.off = s.buf.length) (hp : 0 < s.off) (hf : s.off = s.len)
    (hc : ∀ b t, s.buf = b :: t → s.len = varintParseLen b ∨ s.len = 1) :
    ∃ s1, SameRest s1 s ∧ s1.buf = s.buf ∧
      ((s.tryVarint = (none, s1) ∧ VarBuf s1) ∨ ∃ v, s.tryVarint = (some v, s1) ∧ IsVarint v s1.buf) := by
  cases hb : s.buf with
  | nil => rw [hb] at ho; simp at ho; omega
  | cons b t =>
    have hpos := parseLen_pos b
    have hdec : s.len = varintParseLen b ∨ s.off = 1 ∧ varintParseLen b = 1 →
        ∃ v, decVarint s.buf = .ok (v, s.buf.length) ∧ IsVarint v s.buf := by
      intro hl
      have hlen : s.buf.length = varintParseLen b := by omega
      have : decVarint s.buf = .ok (beVal (s.buf.take (varintParseLen b)) % 2 ^ (8 * varintParseLen b - 2),
          s.buf.length) := by
        rw [hb]
        rw [hb] at hlen
        simp only [decVarint]
        rw [if_neg (by omega), hlen]
      refine ⟨_, this, ?_⟩
      have := decVarint_iff (bs := s.buf) (tail := []) (v := beVal (s.buf.take (varintParseLen b)) % 2 ^ (8 * varintParseLen b - 2))
      rw [List.append_nil] at this
      exact this.mp ‹_›
    refine ⟨s.varintLen, ?_, ?_, ?_⟩
    · unfold Strm.varintLen
      split <;> exact ⟨rfl, rfl, rfl, rfl, rfl, rfl, rfl, rfl, rfl⟩
    · unfold Strm.varintLen
      split <;> exact hb
    · have hvb : s.varintLen.buf = s.buf := by unfold Strm.varintLen; split <;> rfl
      have hvo : s.varintLen.off = s.off := by unfold Strm.varintLen; split <;> rfl
      have hvl : s.varintLen.len = if s.off = 1 then varintParseLen b else s.len := by
        unfold Strm.varintLen; split <;> simp [hb]
      by_cases h1 : s.off = 1
      · rw [if_pos h1] at hvl
        by_cases h2 : varintParseLen b = 1
        · right
          obtain ⟨v, d1, d2⟩ := hdec (.inr ⟨h1, h2⟩)
          refine ⟨v, ?_, by rw [hvb]; exact d2⟩
          unfold Strm.tryVarint
          rw [if_neg (by simp [Strm.complete, hvo, hvl, h1, h2]), d1]
        · left
          refine ⟨?_, ⟨by rw [hvo, hvb]; exact ho, by rw [hvo, hvl]; omega, ?_, ?_⟩⟩
          · unfold Strm.tryVarint
            rw [if_pos]
            simp only [Strm.complete, hvo, hvl, h1, Bool.not_eq_true', beq_eq_false_iff_ne]
            omega
          · rw [hvb, hb]; intro c; cases c
          · rw [hvb, hb]; intro b' t' c; cases c; exact hvl
      · rw [if_neg h1] at hvl
        right
        have hl : s.len = varintParseLen b := by
          rcases hc b t hb with h | h
          · exact h
          · omega
        obtain ⟨v, d1, d2⟩ := hdec (.inl hl)
        refine ⟨v, ?_, by rw [hvb]; exact d2⟩
        unfold Strm.tryVarint
        rw [if_neg (by simp [Strm.complete, hvo, hvl, hf]), d1]

/-- Reading an integer, and what follows. -/
theorem var_step {spare : Nat → Nat → Nat} {c : C} {id : Nat} {s : Strm} {st : Step} {c' : C}
    {K : Nat → Strm → C → Step × C} (hwf : (c.rx id).WF) (hv : VarBuf s)
    (h : c.filled id (s.tryFill spare (c.rx id)) (fun s c => c.varint id s K) = (st, c')) :
    ∃ s1 r1 bs, Rd (c.rx id) r1 bs ∧ SameRest s1 s ∧ s1.buf = s.buf ++ bs ∧
      ((VarBuf s1 ∧ c' = c.put id s1 r1 ∧ (st = .again ∧ bs ≠ [] ∨
          st = .ret (.error .done) ∨ st = .ret (.error .transport) ∧ r1.gone = true ∨
          ∃ x, st = .ret (.error (.streamReset x)) ∧ r1.err = some x)) ∨
        (s.critical = true ∧ (st, c') = stepFailed (c.put id s1 r1).failCritical) ∨
        ∃ v, IsVarint v s1.buf ∧ bs ≠ [] ∧ (st, c') = K v s1 (c.put id s1 r1)) := by
  cases hx : s.tryFill spare (c.rx id) with
  | mk f y =>
  obtain ⟨s1, r1⟩ := y
  rw [hx] at h
  obtain ⟨bs, h1, h2, h3, h4, h5, h6⟩ := tryFill_spec hwf (Nat.le_of_lt hv.lt) hx
  have hrest := SameRest.of_commit h1
  have hbuf : s1.buf = s.buf ++ bs := h1.buf
  have hoff : s1.off = s.off + bs.length := h1.off
  have hlen : s1.len = s.len := h1.len
  have hvar : s1.off < s1.len → VarBuf s1 := by
    intro hlt
    refine ⟨by rw [hoff, hbuf, List.length_append, hv.off], hlt, ?_, ?_⟩
    · intro hb
      rw [hbuf, List.append_eq_nil_iff] at hb
      rw [hlen]; exact hv.nil hb.1
    · intro b t hb
      rw [hlen]
      cases hsb : s.buf with
      | nil =>
        have := hv.nil hsb
        have h0 := hv.off
        rw [hsb] at h0 hbuf
        rw [hb] at hbuf
        have := congrArg List.length hbuf
        simp only [List.length_cons, List.nil_append, List.length_nil] at this h0
        omega
      | cons b' t' =>
        rw [hbuf, hsb] at hb
        have : b' = b := by simpa using congrArg List.head? hb
        rw [← this]
        exact hv.cons b' t' hsb
  unfold C.filled at h
  cases f with
  | ok =>
    dsimp only at h
    have hfull := h4 rfl
    have hne : bs ≠ [] := by
      intro e
      rw [e] at hoff
      have := hv.lt
      simp at hoff
      omega
    have hpos : 0 < s1.off := by
      have := List.length_pos_iff.mpr hne
      omega
    obtain ⟨s2, g1, g2, g3⟩ := tryVarint_spec (s := s1) (by rw [hoff, hbuf, List.length_append, hv.off]) hpos hfull (by
      intro b t hb
      cases hsb : s.buf with
      | nil => right; rw [hlen]; exact hv.nil hsb
      | cons b' t' =>
        left
        rw [hbuf, hsb] at hb
        have : b' = b := by simpa using congrArg List.head? hb
        rw [hlen, ← this]
        exact hv.cons b' t' hsb)
    have grest : SameRest s2 s := ⟨g1.1.trans hrest.1, g1.2.trans hrest.2, g1.3.trans hrest.3,
      g1.4.trans hrest.4, g1.5.trans hrest.5, g1.6.trans hrest.6, g1.7.trans hrest.7,
      g1.8.trans hrest.8, g1.9.trans hrest.9⟩
    refine ⟨s2, r1, bs, h2, grest, by rw [g2, hbuf], ?_⟩
    unfold C.varint at h
    rcases g3 with ⟨g3, g4⟩ | ⟨v, g3, g4⟩
    · rw [g3] at h
      dsimp only at h
      rw [put_setStrm] at h
      cases h
      exact .inl ⟨g4, rfl, .inl ⟨rfl, hne⟩⟩
    · rw [g3] at h
      dsimp only at h
      rw [put_setStrm] at h
      exact .inr (.inr ⟨v, g4, hne, h.symm⟩)
  | err e =>
    dsimp only at h
    cases h
    refine ⟨s1, r1, bs, h2, hrest, hbuf, .inl ⟨hvar (h6 e rfl), rfl, .inr ?_⟩⟩
    rcases h5 with h5 | h5 | h5 | ⟨h5, h7⟩ | ⟨x, h5, h7⟩
    · cases h5
    · cases h5
    · cases h5; exact .inl rfl
    · cases h5; exact .inr (.inl ⟨rfl, h7⟩)
    · cases h5; exact .inr (.inr ⟨x, rfl, h7⟩)
  | closedCritical =>
    exact ⟨s1, r1, bs, h2, hrest, hbuf, .inr (.inl ⟨tryFill_critical hx, h.symm⟩)⟩

end Verif.H3
