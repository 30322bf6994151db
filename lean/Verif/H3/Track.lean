import Verif.H3.Exec

/-! What processing does to the connection as a whole: error codes, critical streams, GOAWAY and
MAX_PUSH_ID. -/

namespace Verif.H3
open Verif

/-- The streams that must not be closed. -/
def Ty.crit : Ty → Bool
  | .control | .qpackEncoder | .qpackDecoder => true
  | _ => false

/-- The stream in a role. -/
def C.role (c : C) : Ty → Option Nat
  | .control => c.peerControl
  | .qpackEncoder => c.peerEnc
  | .qpackDecoder => c.peerDec
  | _ => none

/-- Errors that do not close the connection. -/
def Err.soft : Err → Bool
  | .done | .transport | .streamReset _ | .streamBlocked | .panic => true
  | _ => false

/-- The code the connection is closed with, for a result. -/
def Code (isServer : Bool) (res : Option Res) (code : Option Nat) : Prop :=
  match res with
  | none => code = none
  | some (.ok _) => code = none
  | some (.error e) => e = .panic ∨ (e.soft = true ∧ code = none) ∨ (e.soft = false ∧ code = some e.toWire) ∨
      (isServer = false ∧ e = .idError ∧ code = some 0x105)

/-- Only servers are told of priorities, and only of request streams up to the limit. -/
def PrioOk (c : C) (res : Option Res) : Prop := ∀ el, res = some (.ok (el, .priorityUpdate)) →
  c.isServer = true ∧ el % 4 = 0 ∧ el ≤ 4 * c.maxStreamsBidi

theorem prio_error {c : C} {e : Err} : PrioOk c (some (.error e)) := fun _ h => by cases h

/-- From `c` to `c'`, with a result or with none yet. -/
structure Tr (c : C) (res : Option Res) (c' : C) : Prop where
  server : c'.isServer = c.isServer
  dead : c'.dead = false
  lerr : c.localErr.isSome = true → c'.localErr = c.localErr
  code : c.localErr = none → Code c.isServer res c'.localErr
  goaway : (∃ g, res = some (.ok (g, .goAway)) ∧ c'.peerGoaway = some g ∧ (∀ p, c.peerGoaway = some p → g ≤ p) ∧
      (c.isServer = false → g % 4 = 0)) ∨
    ((∀ g, res ≠ some (.ok (g, .goAway))) ∧ c'.peerGoaway = c.peerGoaway)
  push : c.maxPushId ≤ c'.maxPushId
  prio : PrioOk c res ∧ c'.maxStreamsBidi = c.maxStreamsBidi
  role : ∀ t i, c.role t = some i → c'.role t = some i
  crit : c'.localErr = none → ∀ i s', c'.streams i = some s' → ∀ t, t.crit = true → s'.ty = some t →
    (∃ s, c.streams i = some s ∧ s.ty = some t) ∨ c'.role t = some i

theorem Tr.trans {a b c : C} {res : Option Res} (h : Tr a none b) (g : Tr b res c) : Tr a res c where
  server := g.server.trans h.server
  dead := g.dead
  lerr := fun e => by
    have := h.lerr e
    rw [g.lerr (by rw [this]; exact e), this]
  code := fun e => by
    have := h.code e
    rw [← h.server]
    exact g.code this
  goaway := by
    have h1 : b.peerGoaway = a.peerGoaway := by
      rcases h.goaway with ⟨_, c, _⟩ | ⟨_, h⟩
      · cases c
      · exact h
    have := g.goaway
    rw [h1, h.server] at this
    exact this
  push := Nat.le_trans h.push g.push
  prio := ⟨fun el e => by
    have := g.prio.1 el e
    rw [h.server, h.prio.2] at this
    exact this, g.prio.2.trans h.prio.2⟩
  role := fun t i e => g.role t i (h.role t i e)
  crit := fun e i s' hs t ht hty => by
    rcases g.crit e i s' hs t ht hty with ⟨s1, h1, h2⟩ | h1
    · have hn : b.localErr = none := by
        cases hb : b.localErr with
        | none => rfl
        | some x =>
          have := g.lerr (by rw [hb]; rfl)
          rw [e, hb] at this; cases this
      rcases h.crit hn i s1 h1 t ht h2 with h3 | h3
      · exact .inl h3
      · exact .inr (g.role t i h3)
    · exact .inr h1

/-- A result that says nothing of the connection. -/
def Plain (res : Option Res) : Prop :=
  (∀ e, res = some (.error e) → e.soft = true) ∧ (∀ g, res ≠ some (.ok (g, .goAway))) ∧
  ∀ g, res ≠ some (.ok (g, .priorityUpdate))

theorem plain_none : Plain none := ⟨(fun _ c => by cases c), (fun _ c => by cases c), (fun _ c => by cases c)⟩
theorem plain_soft {e : Err} (h : e.soft = true) : Plain (some (.error e)) :=
  ⟨(fun _ c => by cases c; exact h), (fun _ c => by cases c), (fun _ c => by cases c)⟩

/-- Only streams and the transport change. -/
theorem Tr.plain {c c' : C} {res : Option Res} (hd : c.dead = false) (hp : Plain res) (h1 : c'.isServer = c.isServer)
    (h2 : c'.dead = c.dead) (h3 : c'.localErr = c.localErr) (h4 : c'.peerGoaway = c.peerGoaway)
    (h5 : c'.maxPushId = c.maxPushId) (h8 : c'.maxStreamsBidi = c.maxStreamsBidi) (h6 : ∀ t, c'.role t = c.role t)
    (h7 : ∀ i s', c'.streams i = some s' → (∃ s, c.streams i = some s ∧ s.ty = s'.ty) ∨ ∀ t, s'.ty = some t → t.crit = false) :
    Tr c res c' where
  server := h1
  dead := h2.trans hd
  lerr := fun _ => h3
  code := fun e => by
    rw [e] at h3
    unfold Code
    split
    · exact h3
    · exact h3
    · exact .inr (.inl ⟨hp.1 _ rfl, h3⟩)
  goaway := .inr ⟨hp.2.1, h4⟩
  push := Nat.le_of_eq h5.symm
  prio := ⟨fun el e => absurd e (hp.2.2 el), h8⟩
  role := fun t i e => by rw [h6]; exact e
  crit := fun _ i s' hs t ht hty => by
    rcases h7 i s' hs with ⟨s, a, b⟩ | h
    · exact .inl ⟨s, a, b.trans hty⟩
    · rw [h t hty] at ht; cases ht

theorem Tr.same {c : C} {res : Option Res} (hd : c.dead = false) (hp : Plain res) : Tr c res c :=
  .plain hd hp rfl rfl rfl rfl rfl rfl (fun _ => rfl) (fun _ s' h => .inl ⟨s', h, rfl⟩)

theorem tr_setStrm {c : C} {id : Nat} {s s' : Strm} {res : Option Res} (hd : c.dead = false) (hp : Plain res)
    (hs : c.streams id = some s) (ht : s'.ty = s.ty) : Tr c res (c.setStrm id s') := by
  refine .plain hd hp rfl rfl rfl rfl rfl rfl (fun t => by cases t <;> rfl) (fun i t h => .inl ?_)
  by_cases e : i = id
  · subst e
    rw [show (c.setStrm i s').streams i = some s' from upd_same _ _ _] at h
    cases h
    exact ⟨s, hs, ht.symm⟩
  · rw [show (c.setStrm id s').streams i = c.streams i from upd_other _ _ e] at h
    exact ⟨t, h, rfl⟩

theorem tr_setRx {c : C} {id : Nat} {r : Rx} {res : Option Res} (hd : c.dead = false) (hp : Plain res) :
    Tr c res (c.setRx id r) :=
  .plain hd hp rfl rfl rfl rfl rfl rfl (fun t => by cases t <;> rfl) (fun _ s' h => .inl ⟨s', h, rfl⟩)

theorem tr_put {c : C} {id : Nat} {s s' : Strm} {r : Rx} {res : Option Res} (hd : c.dead = false) (hp : Plain res)
    (hs : c.streams id = some s) (ht : s'.ty = s.ty) : Tr c res (c.put id s' r) :=
  (tr_setStrm hd plain_none hs ht).trans (tr_setRx hd hp)

/-- Closing. -/
theorem tr_closeWith {c : C} {code : Nat} {e : Err} (hd : c.dead = false)
    (h : e = .panic ∨ e.soft = false ∧ code = e.toWire ∨ c.isServer = false ∧ e = .idError ∧ code = 0x105) :
    Tr c (some (.error (c.closeWith code e).1)) (c.closeWith code e).2 := by
  rcases closeWith_spec c hd code e with ⟨h1, h2⟩ | ⟨h1, h2⟩
  · rw [h1]
    refine ⟨rfl, hd, (fun x => by rw [h2] at x; cases x), fun _ => ?_, .inr ⟨(fun _ c => by cases c), rfl⟩,
      Nat.le_refl _, ⟨prio_error, rfl⟩, (fun t i => by cases t <;> exact fun h => h), (fun x => by cases x)⟩
    rcases h with a | ⟨a, b⟩ | ⟨a, b, c⟩
    · exact .inl a
    · exact .inr (.inr (.inl ⟨a, by rw [b]⟩))
    · exact .inr (.inr (.inr ⟨a, b, by rw [c]⟩))
  · rw [h1]
    exact .same hd (plain_soft rfl)

theorem tr_fail' {c : C} {e : Err} (hd : c.dead = false) (h : e = .panic ∨ e.soft = false) :
    Tr c (some (.error (c.fail e).1)) (c.fail e).2 := tr_closeWith hd (h.imp id fun h => .inl ⟨h, rfl⟩)

theorem tr_fail {c : C} {e : Err} (hd : c.dead = false) (h : e.soft = false) :
    Tr c (some (.error (c.fail e).1)) (c.fail e).2 := tr_fail' hd (.inr h)

/-! ### Reading -/

theorem recv_soft {r r' : Rx} {n : Nat} {e : Err} (h : r.recv n = (.error e, r')) : e.soft = true := by
  unfold Rx.recv at h
  split at h
  · cases h; rfl
  split at h
  · cases h; rfl
  split at h
  · cases h; rfl
  · cases h

theorem fillLoop_ty {spare : Nat → Nat → Nat} : ∀ {k : Nat} {s s' : Strm} {r r' : Rx} {f : Fill},
    Strm.fillLoop spare k s r = (f, s', r') → s'.ty = s.ty ∧ ∀ e, f = .err e → e.soft = true := by
  intro k
  induction k with
  | zero => intro s s' r r' f h; cases h; exact ⟨rfl, (fun e c => by cases c; rfl)⟩
  | succ k ih =>
    intro s s' r r' f h
    unfold Strm.fillLoop at h
    split at h
    · split at h
      · cases h; exact ⟨rfl, (fun e c => by cases c)⟩
      split at h
      · split at h
        · cases h; exact ⟨rfl, (fun e c => by cases c)⟩
        · cases h; exact ⟨rfl, (fun e c => by cases c; rfl)⟩
      split at h
      · cases h; exact ⟨rfl, (fun e c => by cases c)⟩
      · have := ih h; exact this
    · split at h
      · cases h; exact ⟨rfl, (fun e c => by cases c)⟩
      · cases h; exact ⟨rfl, (fun e c => by cases c; rfl)⟩
    · cases h; exact ⟨rfl, (fun e c => by cases c; rfl)⟩
    · rename_i e r2 _ _ hr
      cases h; exact ⟨rfl, (fun e c => by cases c; exact recv_soft hr)⟩

theorem tryFill_ty {spare : Nat → Nat → Nat} {s s' : Strm} {r r' : Rx} {f : Fill}
    (h : s.tryFill spare r = (f, s', r')) : s'.ty = s.ty ∧ ∀ e, f = .err e → e.soft = true := by
  unfold Strm.tryFill at h
  split at h
  · cases h; exact ⟨rfl, (fun e c => by cases c)⟩
  · exact fillLoop_ty h

theorem trySkip_ty {s s' : Strm} {r r' : Rx} {f : Fill}
    (h : s.trySkipFrame r = (f, s', r')) : s'.ty = s.ty ∧ ∀ e, f = .err e → e.soft = true := by
  have key : ∀ {s' : Strm} {r' : Rx} {f : Fill}, s.trySkipData r = (f, s', r') →
      s'.ty = s.ty ∧ ∀ e, f = .err e → e.soft = true := by
    intro s' r' f h
    unfold Strm.trySkipData at h
    split at h
    · cases h; exact ⟨rfl, (fun e c => by cases c)⟩
    split at h
    · split at h
      · cases h; exact ⟨rfl, (fun e c => by cases c)⟩
      split at h
      · cases h; exact ⟨rfl, (fun e c => by cases c)⟩
      · cases h; exact ⟨rfl, (fun e c => by cases c; rfl)⟩
    · split at h
      · cases h; exact ⟨rfl, (fun e c => by cases c)⟩
      · cases h; exact ⟨rfl, (fun e c => by cases c; rfl)⟩
    · cases h; exact ⟨rfl, (fun e c => by cases c; rfl)⟩
    · rename_i e r2 _ _ hr
      cases h; exact ⟨rfl, (fun e c => by cases c; exact recv_soft hr)⟩
  unfold Strm.trySkipFrame at h
  split at h
  · rename_i s1 r1 hx
    cases h
    refine ⟨?_, (fun e c => by cases c)⟩
    rw [← (key hx).1]
    unfold Strm.transition
    split <;> rfl
  · exact key h

/-- What a step of an iteration may do. -/
abbrev StepTr (c : C) (x : Step × C) : Prop :=
  match x with
  | (.ret r, c') => Tr c (some r) c'
  | (.again, c') => Tr c none c'

theorem StepTr.trans {a b : C} {x : Step × C} (h : Tr a none b) (g : StepTr b x) : StepTr a x := by
  obtain ⟨st, c⟩ := x
  cases st with
  | ret r => exact h.trans g
  | again => exact h.trans g

theorem stepTr_failed {c : C} {e : Err} (hd : c.dead = false) (h : e.soft = false) :
    StepTr c (stepFailed (c.fail e)) := tr_fail hd h

theorem filled_tr {c : C} {id : Nat} {s : Strm} {x : Fill × Strm × Rx} {k : Strm → C → Step × C}
    (hd : c.dead = false) (hs : c.streams id = some s)
    (hx : x.2.1.ty = s.ty ∧ ∀ e, x.1 = .err e → e.soft = true)
    (hk : ∀ s1 c1, c1.dead = false → c1.streams id = some s1 → s1.ty = s.ty → StepTr c1 (k s1 c1)) :
    StepTr c (c.filled id x k) := by
  obtain ⟨f, s1, r1⟩ := x
  cases f with
  | ok => exact StepTr.trans (tr_put hd plain_none hs hx.1) (hk s1 _ hd (put_strm _ _ _ _) hx.1)
  | err e => exact tr_put hd (plain_soft (hx.2 e rfl)) hs hx.1
  | closedCritical =>
    exact StepTr.trans (tr_put (s' := s1) (r := r1) hd plain_none hs hx.1) (stepTr_failed hd rfl)

theorem varintLen_ty (s : Strm) : s.varintLen.ty = s.ty := by
  unfold Strm.varintLen; split <;> rfl

theorem tryVarint_ty (s : Strm) : s.tryVarint.2.ty = s.ty := by
  unfold Strm.tryVarint
  split
  · exact varintLen_ty s
  · split <;> exact varintLen_ty s

theorem varint_tr {c : C} {id : Nat} {s : Strm} {k : Nat → Strm → C → Step × C}
    (hd : c.dead = false) (hs : c.streams id = some s)
    (hk : ∀ v s1 c1, c1.dead = false → c1.streams id = some s1 → s1.ty = s.ty → StepTr c1 (k v s1 c1)) :
    StepTr c (c.varint id s k) := by
  unfold C.varint
  have ht := tryVarint_ty s
  split
  · rename_i s1 hv
    rw [hv] at ht
    exact tr_setStrm hd plain_none hs ht
  · rename_i v s1 hv
    rw [hv] at ht
    exact StepTr.trans (tr_setStrm hd plain_none hs ht) (hk v s1 _ hd (upd_same _ _ _) ht)

theorem transition_ty (s : Strm) (st : SState) (n : Nat) (b : Bool) :
    (s.transition st n b).2.ty = s.ty ∧ ∀ e, (s.transition st n b).1 = .error e → e.soft = false := by
  unfold Strm.transition
  split
  · exact ⟨rfl, (fun e c => by cases c; rfl)⟩
  · exact ⟨rfl, (fun e c => by cases c)⟩

theorem applied_tr {c : C} {id : Nat} {s : Strm} {x : Except Err Unit × Strm} {k : C → Step × C}
    (hd : c.dead = false) (hs : c.streams id = some s)
    (hx : x.2.ty = s.ty ∧ ∀ e, x.1 = .error e → e.soft = false)
    (hk : ∀ c1, c1.dead = false → StepTr c1 (k c1)) : StepTr c (c.applied id x k) := by
  obtain ⟨f, s1⟩ := x
  cases f with
  | error e =>
    exact StepTr.trans (tr_setStrm (s' := s1) hd plain_none hs hx.1) (stepTr_failed hd (hx.2 e rfl))
  | ok u => exact StepTr.trans (tr_setStrm hd plain_none hs hx.1) (hk _ hd)

theorem setFrameType_ty (s : Strm) (t : Nat) :
    (s.setFrameType t).2.ty = s.ty ∧ ∀ e, (s.setFrameType t).1 = .error e → e.soft = false := by
  have key : (∀ e, s.validate t = .error e → e.soft = false) ∧ ∀ s', s.validate t = .ok s' → s'.ty = s.ty := by
    unfold Strm.validate
    split
    · unfold Strm.validateControl
      split
      · split
        · exact ⟨(fun e c => by cases c), (fun e c => by cases c; rfl)⟩
        · exact ⟨(fun e c => by cases c; rfl), (fun e c => by cases c)⟩
      · split
        · exact ⟨(fun e c => by cases c; rfl), (fun e c => by cases c)⟩
        · exact ⟨(fun e c => by cases c), (fun e c => by cases c; rfl)⟩
    · unfold Strm.validateRequest
      repeat' split
      all_goals first
        | exact ⟨(fun e c => by cases c; rfl), (fun e c => by cases c)⟩
        | exact ⟨(fun e c => by cases c), (fun e c => by cases c; rfl)⟩
    · unfold Strm.validatePush
      split
      · exact ⟨(fun e c => by cases c; rfl), (fun e c => by cases c)⟩
      · exact ⟨(fun e c => by cases c), (fun e c => by cases c; rfl)⟩
    · exact ⟨(fun e c => by cases c; rfl), (fun e c => by cases c)⟩
  unfold Strm.setFrameType
  split
  · rename_i e he
    exact ⟨rfl, (fun e c => by cases c; exact key.1 _ he)⟩
  · rename_i s' he
    have := transition_ty { s' with frameType := some t } .framePayloadLen 1 true
    have h2 := key.2 _ he
    exact ⟨this.1.trans h2, this.2⟩

theorem setFramePayloadLen_ty (s : Strm) (n : Nat) :
    (s.setFramePayloadLen n).2.ty = s.ty ∧ ∀ e, (s.setFramePayloadLen n).1 = .error e → e.soft = false := by
  have key : ∀ e, s.payloadState n = .error e → e.soft = false := by
    unfold Strm.payloadState
    intro e
    repeat' split
    all_goals first
      | (intro c; cases c; rfl)
      | (intro c; cases c)
  unfold Strm.setFramePayloadLen
  split
  · exact ⟨rfl, (fun e c => by cases c; rfl)⟩
  split
  · rename_i e he
    exact ⟨rfl, (fun e c => by cases c; exact key _ he)⟩
  · exact transition_ty _ _ _ _

/-! ### Frames -/

theorem tr_resFailed {c : C} {e : Err} (hd : c.dead = false) (h : e.soft = false) :
    Tr c (some (resFailed (c.fail e)).1) (resFailed (c.fail e)).2 := tr_fail hd h

theorem fresh_ty (c : C) (id : Nat) : ∀ t, (c.fresh id).ty = some t → t.crit = false := by
  intro t h
  unfold C.fresh at h
  cases hb : isBidi id with
  | true => rw [(new_bidi hb _ _ _).1] at h; cases h; rfl
  | false => rw [(new_uni hb _ _ _).1] at h; cases h

theorem tr_fresh {c : C} {id : Nat} {s : Strm} {res : Option Res} (hd : c.dead = false) (hp : Plain res)
    (ht : s.ty = ((c.streams id).getD (c.fresh id)).ty) : Tr c res (c.setStrm id s) := by
  cases hs : c.streams id with
  | some s0 => exact tr_setStrm hd hp hs (by rw [hs] at ht; exact ht)
  | none =>
    rw [hs] at ht
    refine .plain hd hp rfl rfl rfl rfl rfl rfl (fun t => by cases t <;> rfl) (fun i t h => ?_)
    by_cases e : i = id
    · subst e
      rw [show (c.setStrm i s).streams i = some s from upd_same _ _ _] at h
      cases h
      exact .inr (fun t h => fresh_ty c i t (by rw [← h]; exact ht.symm))
    · rw [show (c.setStrm id s).streams i = c.streams i from upd_other _ _ e] at h
      exact .inl ⟨t, h, rfl⟩

theorem processFrame_tr {c : C} {id : Nat} {f : Frame} (hd : c.dead = false) :
    Tr c (some (c.processFrame id f).1) (c.processFrame id f).2 := by
  cases f with
  | data p => exact .same hd (plain_soft rfl)
  | cancelPush p => exact .same hd (plain_soft rfl)
  | unknown t p => exact .same hd (plain_soft rfl)
  | settings s =>
    have h1 : Tr c none { c with peerSettings := { s with grease := none } } :=
      .plain hd plain_none rfl rfl rfl rfl rfl rfl (fun t => by cases t <;> rfl) (fun _ s' h => .inl ⟨s', h, rfl⟩)
    show Tr c (some (c.onSettings s).1) (c.onSettings s).2
    unfold C.onSettings
    dsimp only
    split
    · exact h1.trans (tr_resFailed hd rfl)
    · exact h1.trans (.same hd (plain_soft rfl))
  | headers b =>
    show Tr c (some (c.onHeaders id b).1) (c.onHeaders id b).2
    unfold C.onHeaders
    have key : ∀ c1, c.countHeaders id = some c1 → Tr c none c1 := by
      intro c1 h
      unfold C.countHeaders at h
      split at h
      · cases h; exact .same hd plain_none
      · rename_i s hs
        split at h
        · cases h
        · cases h; exact tr_setStrm hd plain_none hs rfl
    split
    · exact tr_resFailed hd rfl
    · rename_i c1 hc
      have h1 := key c1 hc
      refine h1.trans ?_
      split
      · exact .same h1.dead ⟨(fun _ c => by cases c), (fun _ c => by cases c), (fun _ c => by cases c)⟩
      · rename_i e he
        refine tr_resFailed h1.dead ?_
        have := Qpack.decode_ne_panic b (c1.maxField.getD (2 ^ 64 - 1))
        cases e <;> first | rfl | (exact absurd he this)
  | goAway g =>
    show Tr c (some (c.onGoAway g).1) (c.onGoAway g).2
    unfold C.onGoAway
    have hok : (∀ p, c.peerGoaway = some p → g ≤ p) → (c.isServer = false → g % 4 = 0) →
        Tr c (some (.ok (g, .goAway))) { c with peerGoaway := some g } := by
      intro h h4
      refine ⟨rfl, hd, fun _ => rfl, fun e => e, .inl ⟨g, rfl, rfl, h, h4⟩, Nat.le_refl _, ⟨(fun _ c => by cases c), rfl⟩,
        (fun t i => by cases t <;> exact fun h => h), fun _ i s' hs t _ hty => .inl ⟨s', hs, hty⟩⟩
    split
    · rename_i hg
      refine tr_closeWith hd (.inr (.inr ⟨?_, rfl, rfl⟩))
      simp only [Bool.and_eq_true, Bool.not_eq_true'] at hg
      exact hg.1
    rename_i hg
    have h4 : c.isServer = false → g % 4 = 0 := by
      intro e
      rw [e] at hg
      simpa using hg
    split
    · rename_i p hp
      split
      · exact tr_resFailed hd rfl
      · exact hok (fun q hq => by rw [hp] at hq; cases hq; omega) h4
    · rename_i hp
      exact hok (fun q hq => by rw [hp] at hq; cases hq) h4
  | maxPushId p =>
    show Tr c (some (c.onMaxPushId p).1) (c.onMaxPushId p).2
    unfold C.onMaxPushId
    split
    · exact tr_resFailed hd rfl
    split
    · exact tr_resFailed hd rfl
    · refine ⟨rfl, hd, fun _ => rfl, fun e => .inr (.inl ⟨rfl, e⟩), .inr ⟨(fun _ c => by cases c), rfl⟩, ?_, ⟨prio_error, rfl⟩,
        (fun t i => by cases t <;> exact fun h => h), fun _ i s' hs t _ hty => .inl ⟨s', hs, hty⟩⟩
      show c.maxPushId ≤ p
      omega
  | pushPromise p b =>
    show Tr c (some (c.onPushPromise id).1) (c.onPushPromise id).2
    unfold C.onPushPromise
    split
    · exact tr_resFailed hd rfl
    split
    · exact tr_resFailed hd rfl
    · exact .same hd (plain_soft rfl)
  | prioRequest el v =>
    show Tr c (some (c.onPrioRequest el v).1) (c.onPrioRequest el v).2
    unfold C.onPrioRequest
    split
    · exact tr_resFailed hd rfl
    rename_i hserver
    split
    · exact tr_resFailed hd rfl
    rename_i hreq
    split
    · exact tr_resFailed hd rfl
    rename_i hmax
    split
    · exact .same hd (plain_soft rfl)
    unfold C.storePrio
    dsimp only
    split
    · generalize hs' : { (c.streams el).getD (c.fresh el) with lastPrio := some v } = s'
      have h1 : Tr c none (c.setStrm el s') := tr_fresh hd plain_none (by rw [← hs'])
      refine ⟨h1.server, h1.dead, h1.lerr, fun e => e, .inr ⟨(fun _ c => by cases c), rfl⟩, h1.push, ⟨fun i e => ?_, rfl⟩, h1.role, h1.crit⟩
      cases e
      refine ⟨by simpa using hserver, by simpa using hreq, by omega⟩
    · exact tr_fresh hd (plain_soft rfl) rfl
  | prioPush el v =>
    show Tr c (some (c.onPrioPush el).1) (c.onPrioPush el).2
    unfold C.onPrioPush
    split
    · exact tr_resFailed hd rfl
    split
    · exact tr_resFailed hd rfl
    · exact .same hd (plain_soft rfl)

/-! ### Stream types -/

/-- Closing after a change of the streams. -/
theorem tr_failStrm' {c : C} {id : Nat} {s : Strm} {e : Err} (hd : c.dead = false) (h : e = .panic ∨ e.soft = false) :
    StepTr c (stepFailed ((c.setStrm id s).fail e)) := by
  show Tr c (some (.error ((c.setStrm id s).fail e).1)) ((c.setStrm id s).fail e).2
  have := tr_fail' (c := c.setStrm id s) hd h
  refine ⟨this.server, this.dead, this.lerr, this.code, this.goaway, this.push, this.prio, ?_, ?_⟩
  · intro t i hr
    exact this.role t i (by rw [← hr]; cases t <;> rfl)
  · intro hn
    exfalso
    rcases closeWith_spec (c.setStrm id s) hd e.toWire e with ⟨h1, h2⟩ | ⟨h1, h2⟩
    · unfold C.fail at hn; rw [h1] at hn; cases hn
    · unfold C.fail at hn; rw [h1] at hn
      have : (c.setStrm id s).localErr = none := hn
      rw [this] at h2; cases h2

theorem tr_failStrm {c : C} {id : Nat} {s : Strm} {e : Err} (hd : c.dead = false) (h : e.soft = false) :
    StepTr c (stepFailed ((c.setStrm id s).fail e)) := tr_failStrm' hd (.inr h)

theorem openPeer_tr {c : C} {id : Nat} {s s' : Strm} {ty : Ty} (hd : c.dead = false) (hs : c.streams id = some s)
    (ht : s'.ty = some ty) : StepTr c ((c.setStrm id s').openPeer id ty) := by
  have hrole : ∀ t, (c.setStrm id s').role t = c.role t := fun t => by cases t <;> rfl
  have hother : ty.crit = false → ∀ res, Plain res → Tr c res (c.setStrm id s') := by
    intro hc res hp
    refine .plain hd hp rfl rfl rfl rfl rfl rfl hrole (fun i t h => ?_)
    by_cases e : i = id
    · subst e
      rw [show (c.setStrm i s').streams i = some s' from upd_same _ _ _] at h
      cases h
      exact .inr (fun t h => by rw [ht] at h; cases h; exact hc)
    · rw [show (c.setStrm id s').streams i = c.streams i from upd_other _ _ e] at h
      exact .inl ⟨t, h, rfl⟩
  have hcrit : ∀ (old : Option Nat) (set : C → C), c.role ty = old →
      (∀ c : C, (set c).isServer = c.isServer ∧ (set c).dead = c.dead ∧ (set c).localErr = c.localErr ∧
        (set c).peerGoaway = c.peerGoaway ∧ (set c).maxPushId = c.maxPushId ∧ (set c).streams = c.streams ∧ (set c).maxStreamsBidi = c.maxStreamsBidi) →
      (∀ (c : C) t, t ≠ ty → (set c).role t = c.role t) → (∀ c : C, (set c).role ty = some id) →
      StepTr c ((c.setStrm id s').openCritical id old set) := by
    intro old set ho hset hr1 hr2
    unfold C.openCritical
    split
    · exact tr_failStrm hd rfl
    rename_i hold
    split
    · exact tr_failStrm hd rfl
    obtain ⟨q1, q2, q3, q4, q5, q6, q7⟩ := hset (c.setStrm id s')
    refine ⟨q1, q2.trans hd, fun _ => q3, fun e => q3.trans e, .inr ⟨(fun _ c => by cases c), q4⟩, Nat.le_of_eq q5.symm,
      ⟨(fun _ c => by cases c), q7⟩, ?_, ?_⟩
    · intro t i hr
      by_cases e : t = ty
      · subst e
        rw [hr] at ho
        rw [← ho] at hold
        exact absurd rfl hold
      · rw [hr1 _ _ e, hrole]; exact hr
    · intro _ i s2 hs2 t htc hty
      rw [q6] at hs2
      by_cases e : i = id
      · subst e
        rw [show (c.setStrm i s').streams i = some s' from upd_same _ _ _] at hs2
        cases hs2
        rw [ht] at hty
        cases hty
        exact .inr (hr2 _)
      · rw [show (c.setStrm id s').streams i = c.streams i from upd_other _ _ e] at hs2
        exact .inl ⟨s2, hs2, hty⟩
  cases ty with
  | control =>
    exact hcrit c.peerControl (fun c => { c with peerControl := some id }) rfl (fun c => ⟨rfl, rfl, rfl, rfl, rfl, rfl, rfl⟩) (fun c t ht => by cases t <;> first | rfl | exact absurd rfl ht)
      (fun _ => rfl)
  | qpackEncoder =>
    exact hcrit c.peerEnc (fun c => { c with peerEnc := some id }) rfl (fun c => ⟨rfl, rfl, rfl, rfl, rfl, rfl, rfl⟩) (fun c t ht => by cases t <;> first | rfl | exact absurd rfl ht)
      (fun _ => rfl)
  | qpackDecoder =>
    exact hcrit c.peerDec (fun c => { c with peerDec := some id }) rfl (fun c => ⟨rfl, rfl, rfl, rfl, rfl, rfl, rfl⟩) (fun c t ht => by cases t <;> first | rfl | exact absurd rfl ht)
      (fun _ => rfl)
  | push => exact tr_failStrm hd rfl
  | unknown => exact hother rfl none plain_none
  | request => exact hother rfl _ (plain_soft rfl)

theorem qpackLoop_tr {id : Nat} {s : Strm} : ∀ {k : Nat} {c : C}, c.dead = false → StepTr c (C.qpackLoop id s k c) := by
  intro k
  induction k with
  | zero => intro c hd; exact .same hd (plain_soft rfl)
  | succ k ih =>
    intro c hd
    have hcount : ∀ (c1 : C) (n : Nat), c1.dead = false → Tr c1 none (c1.countQpack s n) := by
      intro c1 n h1
      unfold C.countQpack
      split <;> exact .plain h1 plain_none rfl rfl rfl rfl rfl rfl (fun t => by cases t <;> rfl) (fun _ s' h => .inl ⟨s', h, rfl⟩)
    unfold C.qpackLoop
    split
    · rename_i e r hr
      exact tr_setRx hd (plain_soft (recv_soft hr))
    · rename_i bs fin r hr
      have h1 : Tr c none ((c.setRx id r).countQpack s bs.length) :=
        (tr_setRx hd plain_none).trans (hcount _ _ hd)
      split
      · exact StepTr.trans h1 (stepTr_failed h1.dead rfl)
      · exact StepTr.trans h1 (ih h1.dead)

/-! ### Iterations -/

/-- How reading a payload fails. -/
theorem fromBytes_hard {ty n : Nat} {bs : Bytes} {e : Err} (h : fromBytes ty n bs = .error e) :
    e = .panic ∨ e.soft = false := by
  have hv : ∀ {bs : Bytes} {e : Err}, getVar bs = .error e → e = .panic ∨ e.soft = false :=
    fun h => .inr (by rw [getVar_err h]; rfl)
  have hw : ∀ {n : Nat} {bs : Bytes} {e : Err}, getRaw n bs = .error e → e = .panic ∨ e.soft = false := by
    intro n bs e h
    unfold getRaw at h
    split at h
    · cases h; exact .inr rfl
    · cases h
  have hraw : ∀ {f : Bytes → Frame}, parseRaw f n bs = .error e → e = .panic ∨ e.soft = false := by
    intro f h
    unfold parseRaw at h
    split at h
    · rename_i h1; cases h; exact hw h1
    · cases h
  have hid : ∀ {f : Nat → Frame}, parseId f bs = .error e → e = .panic ∨ e.soft = false := by
    intro f h
    unfold parseId at h
    split at h
    · rename_i h1; cases h; exact hv h1
    · cases h
  have hand : ∀ {f : Nat → Bytes → Frame}, parseIdAnd f n bs = .error e → e = .panic ∨ e.soft = false := by
    intro f h
    unfold parseIdAnd at h
    split at h
    · rename_i h1; cases h; exact hv h1
    split at h
    · cases h; exact .inl rfl
    split at h
    · rename_i h1; cases h; exact hw h1
    · cases h
  have hset : ∀ {k left : Nat} {bs : Bytes} {s : Settings} {e : Err}, parseSettings k left s bs = .error e →
      e = .panic ∨ e.soft = false := by
    intro k
    induction k with
    | zero =>
      intro left bs s e h
      unfold parseSettings at h
      split at h
      · cases h; exact .inl rfl
      · cases h
    | succ k ih =>
      intro left bs s e h
      unfold parseSettings at h
      split at h
      · split at h
        · rename_i h1; cases h; exact hv h1
        split at h
        · rename_i h1; cases h; exact hv h1
        split at h
        · rename_i h1; cases h; exact .inr (by rw [(apply_err h1).1]; rfl)
        · exact ih h
      · cases h
  unfold fromBytes at h
  split at h
  · exact hraw h
  split at h
  · exact hraw h
  split at h
  · exact hid h
  split at h
  · unfold parseSettingsFrame at h
    split at h
    · cases h; exact .inr rfl
    split at h
    · rename_i h1; cases h; exact hset h1
    · cases h
  split at h
  · exact hand h
  split at h
  · exact hid h
  split at h
  · exact hid h
  split at h
  · exact hand h
  split at h
  · exact hand h
  · exact hraw h

theorem tryFrame_ty {s : Strm} :
    s.tryFrame.2.ty = s.ty ∧ ∀ e, s.tryFrame.1 = .error e → e = .panic ∨ e.soft = false := by
  unfold Strm.tryFrame
  split
  · exact ⟨rfl, fun e c => by cases c; exact .inl rfl⟩
  split
  · rename_i h
    exact ⟨rfl, fun e c => by cases c; exact fromBytes_hard h⟩
  · rw [transition_one]
    exact ⟨rfl, fun e c => by cases c⟩

theorem iter_tr {spare : Nat → Nat → Nat} {polling : Bool} {id : Nat} {c : C} (hd : c.dead = false) :
    StepTr c (C.iter spare polling id c) := by
  unfold C.iter
  split
  · exact .same hd (plain_soft rfl)
  rename_i s hs
  split
  · refine filled_tr hd hs (tryFill_ty rfl) fun s1 c1 hd1 hs1 _ => varint_tr hd1 hs1 fun v s2 c2 hd2 hs2 _ => ?_
    unfold Strm.setTy
    rw [show (1 : Nat) = 1 from rfl]
    rw [transition_one]
    exact openPeer_tr hd2 hs2 rfl
  · refine filled_tr hd hs (tryFill_ty rfl) fun s1 c1 hd1 hs1 _ => varint_tr hd1 hs1 fun v s2 c2 hd2 hs2 _ => ?_
    exact applied_tr hd2 hs2 (transition_ty _ _ _ _) fun c3 hd3 => .same hd3 plain_none
  · refine filled_tr hd hs (tryFill_ty rfl) fun s1 c1 hd1 hs1 _ => varint_tr hd1 hs1 fun v s2 c2 hd2 hs2 _ => ?_
    exact applied_tr hd2 hs2 (setFrameType_ty _ _) fun c3 hd3 => .same hd3 plain_none
  · refine filled_tr hd hs (tryFill_ty rfl) fun s1 c1 hd1 hs1 _ => varint_tr hd1 hs1 fun v s2 c2 hd2 hs2 _ => ?_
    exact applied_tr hd2 hs2 (setFramePayloadLen_ty _ _) fun c3 hd3 => .same hd3 plain_none
  · split
    · exact .same hd (plain_soft rfl)
    refine filled_tr hd hs (tryFill_ty rfl) fun s1 c1 hd1 hs1 _ => ?_
    have hf : s1.tryFrame.2.ty = s1.ty ∧ ∀ e, s1.tryFrame.1 = .error e → e = .panic ∨ e.soft = false :=
      tryFrame_ty
    split
    · rename_i e s2 hx
      rw [hx] at hf
      exact tr_failStrm' hd1 (hf.2 e rfl)
    · rename_i f s2 hx
      rw [hx] at hf
      have h1 : Tr c1 none (c1.setStrm id s2) := tr_setStrm hd1 plain_none hs1 hf.1
      have h2 := processFrame_tr (c := c1.setStrm id s2) (id := id) (f := f) hd1
      refine StepTr.trans h1 ?_
      generalize (c1.setStrm id s2).processFrame id f = x at h2
      obtain ⟨r, c2⟩ := x
      unfold C.afterFrame
      split
      · rename_i c3 hx
        cases hx
        split
        · exact h2
        · refine ⟨h2.server, h2.dead, h2.lerr, fun e => ?_, .inr ⟨(fun _ c => by cases c), ?_⟩, h2.push, ⟨(fun _ c => by cases c), h2.prio.2⟩, h2.role, h2.crit⟩
          · rcases h2.code e with h | ⟨_, h⟩ | ⟨h, _⟩ | ⟨_, h, _⟩
            · cases h
            · exact h
            · cases h
            · cases h
          · rcases h2.goaway with ⟨_, c, _⟩ | ⟨_, h⟩
            · cases c
            · exact h
      · rename_i r3 c3 _ hx
        cases hx
        exact h2
  · split
    · exact .same hd (plain_soft rfl)
    split
    · exact .same hd (plain_soft rfl)
    · exact tr_setStrm hd ⟨(fun _ c => by cases c), (fun _ c => by cases c), (fun _ c => by cases c)⟩ hs rfl
  · exact qpackLoop_tr hd
  · refine filled_tr hd hs (trySkip_ty rfl) fun s1 c1 hd1 hs1 _ => ?_
    split
    · exact .same hd1 (plain_soft rfl)
    · exact .same hd1 plain_none
  · split
    · rename_i e r hx
      refine tr_setRx hd (plain_soft ?_)
      unfold Rx.shutdown at hx
      split at hx
      · cases hx; rfl
      · cases hx
    · exact tr_setRx hd (plain_soft rfl)
  · exact .same hd (plain_soft rfl)

theorem loop_tr {spare : Nat → Nat → Nat} {polling : Bool} {id : Nat} : ∀ {k : Nat} {c : C}, c.dead = false →
    Tr c (some (C.loop spare polling id k c).1) (C.loop spare polling id k c).2 := by
  intro k
  induction k with
  | zero => intro c hd; exact .same hd (plain_soft rfl)
  | succ k ih =>
    intro c hd
    have h1 := iter_tr (spare := spare) (polling := polling) (id := id) hd
    unfold C.loop
    split
    · rename_i r c1 hx
      rw [hx] at h1
      exact h1
    · rename_i c1 hx
      rw [hx] at h1
      have h1 : Tr c none c1 := h1
      exact h1.trans (ih h1.dead)

theorem processStream_tr {spare : Nat → Nat → Nat} {polling : Bool} {id : Nat} {c : C} (hd : c.dead = false) :
    Tr c (some (c.processStream spare polling id).1) (c.processStream spare polling id).2 := by
  have h1 : Tr c none (c.ensure id) := by
    unfold C.ensure
    split
    · exact .same hd plain_none
    · rename_i hs
      exact tr_fresh hd plain_none (by rw [hs]; rfl)
  exact h1.trans (loop_tr h1.dead)

end Verif.H3
