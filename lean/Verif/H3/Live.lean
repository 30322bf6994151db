import Verif.H3.Iter

/-! What an iteration does to a stream whose state is explained by the bytes read. -/

namespace Verif.H3
open Verif

/-- The state of a stream is explained by the bytes read, and so is what it has given. -/
structure Live (limit id : Nat) (peer : Bool) (s : Strm) (r : Rx) (out : List Out) : Prop where
  wf : r.WF
  hist : ∃ k, k ≤ r.all.length ∧ Match limit id peer s (r.all.take k) out ∧ (r.err = none → k = r.off)
  loc : peer = true → s.isLocal = false
  drain : r.drain = true → s.state = .drain

theorem Live.congr {limit id : Nat} {peer : Bool} {s t : Strm} {r : Rx} {out : List Out}
    (c : SameCore t s) (h : Live limit id peer s r out) : Live limit id peer t r out := by
  obtain ⟨k, h1, h2, h3⟩ := h.hist
  exact ⟨h.wf, ⟨k, h1, h2.congr c, h3⟩, fun e => by rw [c.isLocal]; exact h.loc e,
    fun e => by rw [c.state]; exact h.drain e⟩

/-- Reading on. -/
theorem Live.adv {limit id : Nat} {peer : Bool} {s : Strm} {r r1 : Rx} {out : List Out} {bs : Bytes}
    (h : Live limit id peer s r out) (hr : Rd r r1 bs) :
    ∃ pre, Match limit id peer s pre out ∧ (∃ k, k ≤ r.all.length ∧ pre = r.all.take k) ∧
      ∀ s1 out1, Match limit id peer s1 (pre ++ bs) out1 → s1.isLocal = s.isLocal →
        (r.drain = true → s1.state = .drain) → Live limit id peer s1 r1 out1 := by
  obtain ⟨k, h1, h2, h3⟩ := h.hist
  refine ⟨r.all.take k, h2, ⟨k, h1, rfl⟩, fun s1 out1 m hl hd => ⟨hr.wf, ?_, fun e => by rw [hl]; exact h.loc e,
    fun e => hd (by rw [← hr.drain]; exact e)⟩⟩
  cases he : r.err with
  | none =>
    refine ⟨r1.off, hr.wf.off, ?_, fun _ => rfl⟩
    rw [hr.all, hr.bytes, ← h3 he]
    exact m
  | some x =>
    refine ⟨k, by rw [hr.all]; exact h1, ?_, fun e => ?_⟩
    · rw [hr.broken (by rw [he]; rfl), List.append_nil] at m
      rw [hr.all]; exact m
    · rw [hr.err, he] at e; cases e

/-- The connection is closed; what the stream has given is right. -/
structure Stuck (limit id : Nat) (peer : Bool) (c : C) (out : List Out) : Prop where
  lerr : c.localErr.isSome = true
  state : (c.cur id).state ≠ .data
  hist : ∃ k, k ≤ (c.rx id).all.length ∧ Good limit id peer ((c.rx id).all.take k) out

/-- What an event of a stream gives. -/
def resOut : Res → List Out
  | .ok (_, .headers hs _) => [.headers hs]
  | _ => []

/-- The events of a stream. -/
def EvOk (id i : Nat) (ev : Event) : Prop :=
  (ev = .data ∧ i = id) ∨ (∃ hs m, ev = .headers hs m ∧ i = id) ∨ ev = .goAway ∨ ev = .priorityUpdate

/-- What processing a stream may end with. -/
structure Ret (id : Nat) (polling : Bool) (c : C) (out : List Out) (res : Res) (c' : C) : Prop where
  eff : Eff id c c'
  panic : res ≠ .error .panic
  out : (Live c.limit id (c.peerStream id) (c'.cur id) (c'.rx id) (out ++ resOut res) ∧
      c'.localErr = c.localErr ∧ (polling = false → ∃ e, res = .error e) ∧
      (∀ x, res = .error (.streamReset x) → (c'.rx id).err = some x) ∧
      (∀ i ev, res = .ok (i, ev) → EvOk id i ev)) ∨
    (Stuck c.limit id (c.peerStream id) c' out ∧ ∃ e, res = .error e ∧ (c.localErr = none → e.hard = true))

/-- Iterations left. -/
def pot (id : Nat) (c : C) : Nat :=
  2 * (c.rx id).avail.length +
    (if (c.cur id).state = .framePayload ∨ (c.cur id).state = .skipFramePayload then 1 else 0)

/-- What an iteration may end with. -/
def IterOk (id : Nat) (polling : Bool) (c : C) (out : List Out) (st : Step) (c' : C) : Prop :=
  match st with
  | .ret res => Ret id polling c out res c'
  | .again => Eff id c c' ∧ Live c.limit id (c.peerStream id) (c'.cur id) (c'.rx id) out ∧
      c'.localErr = c.localErr ∧ pot id c' < pot id c

theorem failed_ok {id : Nat} {polling : Bool} {c c1 c' : C} {out : List Out} {st : Step} {code : Nat} {e : Err}
    {s : Strm}
    (hd : c.dead = false) (he : Eff id c c1) (hle : c1.localErr = c.localErr)
    (hs : (c1.cur id).state ≠ .data) (hl : Live c.limit id (c.peerStream id) s (c.rx id) out)
    (hh : e.hard = true) (h : stepFailed (c1.closeWith code e) = (st, c')) :
    IterOk id polling c out st c' := by
  cases hx : c1.closeWith code e with
  | mk e1 c2 =>
    rw [hx] at h
    obtain ⟨g1, g2, g3, g4, g5⟩ := fail_spec (id := id) (by rw [he.dead]; exact hd) hx
    unfold stepFailed at h
    cases h
    obtain ⟨k, k1, k2, _⟩ := hl.hist
    refine ⟨he.trans g1, ?_, .inr ⟨⟨g2, ?_, k, ?_, ?_⟩, _, rfl, fun hn => ?_⟩⟩
    · intro c
      injection c with c
      rcases g5 with ⟨g5, _⟩ | ⟨g5, _⟩
      · exact Err.hard_panic hh (g5 ▸ c)
      · rw [g5] at c; cases c
    · unfold C.cur C.fresh at hs ⊢
      rw [g3, g1.maxField, g1.maxPrio]; exact hs
    · rw [g4, he.all]; exact k1
    · rw [g4, he.all]; exact k2.good
    · rcases g5 with ⟨g5, _⟩ | ⟨_, g5⟩
      · dsimp only; rw [g5]; exact hh
      · rw [hle, hn] at g5; cases g5

theorem Head.rest {id : Nat} {s t : Strm} {hdr : Bytes} (c : SameRest t s) (h : Head id s hdr) :
    Head id t hdr := by
  unfold Head at *; rw [c.ty]; exact h

theorem Gram.rest {id : Nat} {peer : Bool} {s t : Strm} {tys : List Nat} (c : SameRest t s) (h : Gram id peer s tys) :
    Gram id peer t tys := by
  unfold Gram Flags at *; rw [c.remoteInit, c.dataReceived, c.trailersReceived]; exact h

theorem avail_rd {r r1 : Rx} {bs : Bytes} (hr : Rd r r1 bs) (hwf : r.WF) :
    r1.avail.length + bs.length = r.avail.length := by
  unfold Rx.avail
  simp only [List.length_drop]
  have h1 := hr.wf.off
  rw [hr.all] at h1 ⊢
  have := hr.off
  omega

/-- The common part of reading integers: only the case of an integer read is left. -/
theorem var_ok {spare : Nat → Nat → Nat} {polling : Bool} {id : Nat} {c c' : C} {s : Strm} {out : List Out}
    {st : Step} {K : Nat → Strm → C → Step × C}
    (hd : c.dead = false) (hl : Live c.limit id (c.peerStream id) s (c.rx id) out) (hcur : c.cur id = s)
    (hv : VarBuf s) (hst : s.state ≠ .data ∧ s.state ≠ .framePayload ∧ s.state ≠ .skipFramePayload)
    (hm : ∀ pre, Match c.limit id (c.peerStream id) s pre out → ∀ s1 bs, SameRest s1 s →
      s1.buf = s.buf ++ bs → VarBuf s1 → Match c.limit id (c.peerStream id) s1 (pre ++ bs) out)
    (hk : ∀ v s1 r1 bs pre, Match c.limit id (c.peerStream id) s pre out → SameRest s1 s →
      s1.buf = s.buf ++ bs → IsVarint v s1.buf → bs ≠ [] → Rd (c.rx id) r1 bs →
      (∀ s2 out1, Match c.limit id (c.peerStream id) s2 (pre ++ bs) out1 → s2.isLocal = s.isLocal →
        (s.state ≠ .drain) → Live c.limit id (c.peerStream id) s2 r1 out1) →
      K v s1 (c.put id s1 r1) = (st, c') → IterOk id polling c out st c')
    (h : c.filled id (s.tryFill spare (c.rx id)) (fun s c => c.varint id s K) = (st, c')) :
    IterOk id polling c out st c' := by
  obtain ⟨s1, r1, bs, h1, h2, h3, h4⟩ := var_step hl.wf hv h
  obtain ⟨pre, p1, p2, p3⟩ := hl.adv h1
  rcases h4 with ⟨g1, rfl, g2⟩ | ⟨g1, g2⟩ | ⟨v, g1, g2, g3⟩
  · have hlive := p3 s1 out (hm pre p1 s1 bs h2 h3 g1) h2.isLocal (fun e => by rw [h2.state]; exact hl.drain e)
    have heff := eff_put (s := s1) h1
    rcases g2 with ⟨rfl, g2⟩ | g2
    · refine ⟨heff, by rw [cur_put, put_rx]; exact hlive, rfl, ?_⟩
      unfold pot
      rw [put_rx, cur_put, h2.state, hcur, if_neg (by simp [hst.2.1, hst.2.2])]
      have := avail_rd h1 hl.wf
      have := List.length_pos_iff.mpr g2
      omega
    · have : ∀ e, st = .ret (.error e) → e ≠ .panic → (∀ x, e = .streamReset x → r1.err = some x) →
          IterOk id polling c out st (c.put id s1 r1) := by
        intro e hst hp hx
        rw [hst]
        refine ⟨heff, by simpa using hp, .inl ⟨?_, rfl, fun _ => ⟨e, rfl⟩, ?_, ?_⟩⟩
        · rw [cur_put, put_rx]
          simpa [resOut] using hlive
        · intro x hx'
          rw [put_rx]
          injection hx' with hx'
          exact hx x hx'
        · intro i ev hx'; cases hx'
      rcases g2 with g2 | ⟨g2, _⟩ | ⟨x, g2, g3⟩
      · exact this _ g2 (by decide) (by intro x c; cases c)
      · exact this _ g2 (by decide) (by intro x c; cases c)
      · exact this _ g2 (by simp) (by intro y c; cases c; exact g3)
  · exact failed_ok hd (eff_put h1) rfl (by rw [cur_put, h2.state]; exact hst.1) hl (by decide) g2.symm
  · refine hk v s1 r1 bs pre p1 h2 h3 g1 g2 h1 ?_ g3.symm
    intro s2 out1 m e1 e2
    exact p3 s2 out1 m e1 (fun e => absurd (hl.drain e) e2)

/-- Reading on after an integer. -/
theorem again_ok {polling : Bool} {id : Nat} {c c1 c' : C} {s s2 : Strm} {r1 : Rx} {bs : Bytes} {out : List Out} {st : Step}
    (hwf : (c.rx id).WF) (hr : Rd (c.rx id) r1 bs) (hb : bs ≠ [])
    (hc : Eff id (c.put id s2 r1) c1) (hcur : c1.cur id = s2) (hrx : c1.rx id = r1) (hle : c1.localErr = c.localErr)
    (hl : Live c.limit id (c.peerStream id) s2 r1 out)
    (h : (Step.again, c1) = (st, c')) : IterOk id polling c out st c' := by
  cases h
  refine ⟨(eff_put hr).trans hc, by rw [hcur, hrx]; exact hl, hle, ?_⟩
  unfold pot
  rw [hrx]
  have := avail_rd hr hwf
  have := List.length_pos_iff.mpr hb
  split <;> split <;> omega

theorem deserialize_control {v : Nat} : Ty.deserialize v = .control ↔ v = 0 := by
  unfold Ty.deserialize; repeat' split
  all_goals simp_all

theorem deserialize_request {v : Nat} : Ty.deserialize v ≠ .request := by
  unfold Ty.deserialize; repeat' split
  all_goals simp

theorem transition_one (s : Strm) (st : SState) (b : Bool) :
    s.transition st 1 b = (.ok (), { s with buf := [], state := st, off := 0, len := 1 }) := by
  unfold Strm.transition
  rw [if_neg]
  simp

theorem varBuf_new {s : Strm} (h1 : s.buf = []) (h2 : s.off = 0) (h3 : s.len = 1) : VarBuf s :=
  ⟨by rw [h1, h2]; rfl, by omega, fun _ => h3, fun b t c => by rw [h1] at c; cases c⟩

/-- The type of a unidirectional stream. -/
theorem iter_start {spare : Nat → Nat → Nat} {polling : Bool} {id : Nat} {c c' : C} {s : Strm} {out : List Out}
    {st : Step} (hd : c.dead = false) (hs : c.streams id = some s)
    (hl : Live c.limit id (c.peerStream id) s (c.rx id) out) (hst : s.state = .streamType)
    (h : C.iter spare polling id c = (st, c')) : IterOk id polling c out st c' := by
  unfold C.iter at h
  rw [hs] at h
  simp only [hst] at h
  have hm0 : isBidi id = false ∧ s.ty = none ∧ s.remoteInit = false ∧ VarBuf s ∧ out = [] ∧
      ∀ pre o, Match c.limit id (c.peerStream id) s pre o → pre = s.buf := by
    have key : ∀ pre o, Match c.limit id (c.peerStream id) s pre o → isBidi id = false ∧ s.ty = none ∧ s.remoteInit = false ∧ VarBuf s ∧
        o = [] ∧ pre = s.buf := by
      intro pre o m
      cases m with
      | start h1 h2 h3 h4 h5 => exact ⟨h1, h3, h4, h5, rfl, rfl⟩
      | other _ h2 => rw [hst] at h2; simp at h2
      | ft _ h2 => rw [hst] at h2; cases h2
      | fl _ h2 => rw [hst] at h2; cases h2
      | fp _ h2 => rw [hst] at h2; cases h2
      | sk _ h2 => rw [hst] at h2; cases h2
      | da _ h2 => rw [hst] at h2; cases h2
    obtain ⟨k, _, m, _⟩ := hl.hist
    obtain ⟨a1, a2, a3, a4, a5, _⟩ := key _ _ m
    exact ⟨a1, a2, a3, a4, a5, fun pre o m => (key pre o m).2.2.2.2.2⟩
  obtain ⟨hb, hty, hri, hv, rfl, hpre⟩ := hm0
  refine var_ok hd hl (cur_some hs) hv (by rw [hst]; simp) ?_ ?_ h
  · intro pre m s1 bs r1 b1 v1
    rw [hpre pre _ m, ← b1]
    exact .start hb (r1.state.trans hst) (r1.ty.trans hty) (r1.remoteInit.trans hri) v1
  · intro v s1 r1 bs pre m rest b1 iv hne hr hlive hk
    have hpb : pre ++ bs = s1.buf := by rw [hpre pre _ m, b1]
    unfold C.applied at hk
    have e2 : s1.setTy (.deserialize v) = (.ok (), { s1.withTy (.deserialize v) with
        buf := [], state := (Ty.deserialize v).next, off := 0, len := 1 }) := transition_one _ _ _
    rw [e2] at hk
    dsimp only at hk
    rw [put_setStrm] at hk
    have hother : v ≠ 0 → (Ty.deserialize v).next = .qpackInstruction ∨ (Ty.deserialize v).next = .drain →
        Live c.limit id (c.peerStream id) { s1.withTy (.deserialize v) with
          buf := [], state := (Ty.deserialize v).next, off := 0, len := 1 } r1 [] := by
      intro h0 hx
      have h1 : v ≠ 1 := by
        rintro rfl
        rcases hx with hx | hx <;> cases hx
      refine hlive _ [] ?_ rest.isLocal (by rw [hst]; decide)
      have := Match.other (limit := c.limit) (peer := c.peerStream id) (s := { s1.withTy (.deserialize v) with
          buf := [], state := (Ty.deserialize v).next, off := 0, len := 1 }) (y := []) hb hx iv ⟨h0, h1, rfl⟩
      rw [List.append_nil] at this
      rw [hpb]; exact this
    have hfail : ∀ e, Err.hard e = true → (Ty.deserialize v).next ≠ .data →
        stepFailed ((c.put id { s1.withTy (.deserialize v) with
          buf := [], state := (Ty.deserialize v).next, off := 0, len := 1 } r1).fail e) = (st, c') →
        IterOk id polling c [] st c' := by
      intro e n1 n3 hf
      exact failed_ok hd (eff_put hr) rfl (by rw [cur_put]; exact n3) hl n1 hf
    unfold C.openPeer at hk
    cases hty' : Ty.deserialize v with
    | control =>
      have h0 := deserialize_control.mp hty'
      rw [hty'] at hk hfail
      dsimp only at hk
      unfold C.openCritical at hk
      split at hk
      · exact hfail _ (by decide) (by decide) hk
      split at hk
      · exact hfail _ (by decide) (by decide) hk
      · refine again_ok (s := s) (bs := bs) (r1 := r1) (s2 := { s1.withTy .control with
          buf := [], state := Ty.next .control, off := 0, len := 1 }) hl.wf hr hne
          (by exact eff_same rfl rfl rfl rfl rfl (fun _ => rfl) rfl rfl) (by exact cur_put c id _ r1) (by exact put_rx c id _ r1) (by rfl) ?_ hk
        refine hlive _ [] ?_ rest.isLocal (by rw [hst]; decide)
        have := Match.ft (limit := c.limit) (id := id) (peer := c.peerStream id) (s := { s1.withTy .control with
          buf := [], state := Ty.next .control, off := 0, len := 1 }) (hdr := s1.buf) (fs := []) (body := [])
          (by unfold Head; rw [hb]; rw [h0] at iv; exact ⟨rfl, iv⟩) rfl .nil (varBuf_new rfl rfl rfl)
          (by
            unfold Gram
            rw [hb]
            have : (s1.withTy .control).remoteInit = false := by
              simp [Strm.withTy, rest.remoteInit, hri]
            simp [this]) (by intro _ _ f hf; cases hf)
        rw [hpb]
        simpa [framesOut] using this
    | request => exact absurd hty' deserialize_request
    | push =>
      rw [hty'] at hk hfail
      exact hfail _ (by decide) (by decide) hk
    | qpackEncoder =>
      have h0 : v ≠ 0 := fun c => by rw [deserialize_control.mpr c] at hty'; cases hty'
      have hother := hother h0
      rw [hty'] at hk hfail hother
      dsimp only at hk
      unfold C.openCritical at hk
      split at hk
      · exact hfail _ (by decide) (by decide) hk
      split at hk
      · exact hfail _ (by decide) (by decide) hk
      · exact again_ok (s := s) (bs := bs) (r1 := r1) (s2 := { s1.withTy .qpackEncoder with
          buf := [], state := Ty.next .qpackEncoder, off := 0, len := 1 }) hl.wf hr hne
          (by exact eff_same rfl rfl rfl rfl rfl (fun _ => rfl) rfl rfl) (by exact cur_put c id _ r1) (by exact put_rx c id _ r1) (by rfl)
          (hother (.inl rfl)) hk
    | qpackDecoder =>
      have h0 : v ≠ 0 := fun c => by rw [deserialize_control.mpr c] at hty'; cases hty'
      have hother := hother h0
      rw [hty'] at hk hfail hother
      dsimp only at hk
      unfold C.openCritical at hk
      split at hk
      · exact hfail _ (by decide) (by decide) hk
      split at hk
      · exact hfail _ (by decide) (by decide) hk
      · exact again_ok (s := s) (bs := bs) (r1 := r1) (s2 := { s1.withTy .qpackDecoder with
          buf := [], state := Ty.next .qpackDecoder, off := 0, len := 1 }) hl.wf hr hne
          (by exact eff_same rfl rfl rfl rfl rfl (fun _ => rfl) rfl rfl) (by exact cur_put c id _ r1) (by exact put_rx c id _ r1) (by rfl)
          (hother (.inl rfl)) hk
    | unknown =>
      have h0 : v ≠ 0 := fun c => by rw [deserialize_control.mpr c] at hty'; cases hty'
      have hother := hother h0
      rw [hty'] at hk hother
      exact again_ok (s := s) (bs := bs) (r1 := r1) (s2 := { s1.withTy .unknown with
          buf := [], state := Ty.next .unknown, off := 0, len := 1 }) hl.wf hr hne
          (.refl _ _) (cur_put _ _ _ _) (put_rx _ _ _ _) rfl (hother (.inr rfl)) hk

/-- The type of a frame. -/
theorem iter_ft {spare : Nat → Nat → Nat} {polling : Bool} {id : Nat} {c c' : C} {s : Strm} {out : List Out}
    {st : Step} (hd : c.dead = false) (hs : c.streams id = some s)
    (hl : Live c.limit id (c.peerStream id) s (c.rx id) out) (hst : s.state = .frameType)
    (h : C.iter spare polling id c = (st, c')) : IterOk id polling c out st c' := by
  unfold C.iter at h
  rw [hs] at h
  simp only [hst] at h
  have key : ∀ pre o, Match c.limit id (c.peerStream id) s pre o → ∃ hdr fs body, Head id s hdr ∧
      Frames fs body ∧ VarBuf s ∧ Gram id (c.peerStream id) s (fs.map (·.1)) ∧ NoPush id (c.peerStream id) fs ∧
      pre = hdr ++ body ++ s.buf ∧ o = framesOut c.limit fs := by
    intro pre o m
    cases m with
    | start _ h2 => rw [hst] at h2; cases h2
    | other _ h2 => rw [hst] at h2; simp at h2
    | ft h1 _ h3 h4 h5 h6 => exact ⟨_, _, _, h1, h3, h4, h5, h6, rfl, rfl⟩
    | fl _ h2 => rw [hst] at h2; cases h2
    | fp _ h2 => rw [hst] at h2; cases h2
    | sk _ h2 => rw [hst] at h2; cases h2
    | da _ h2 => rw [hst] at h2; cases h2
  have hv : VarBuf s := by
    obtain ⟨k, _, m, _⟩ := hl.hist
    obtain ⟨_, _, _, _, _, hv, _⟩ := key _ _ m
    exact hv
  refine var_ok hd hl (cur_some hs) hv (by rw [hst]; simp) ?_ ?_ h
  · intro pre m s1 bs r1 b1 v1
    obtain ⟨hdr, fs, body, k1, k2, k3, k4, k5, rfl, rfl⟩ := key pre _ m
    rw [List.append_assoc, ← b1]
    exact .ft (k1.rest r1) (r1.state.trans hst) k2 v1 (k4.rest r1) k5
  · intro v s1 r1 bs pre m rest b1 iv hne hr hlive hk
    obtain ⟨hdr, fs, body, k1, k2, k3, k4, k5, rfl, rfl⟩ := key pre _ m
    unfold C.applied Strm.setFrameType at hk
    cases hval : s1.validate v with
    | error e =>
      rw [hval] at hk
      dsimp only at hk
      rw [put_setStrm] at hk
      have hne : e.hard = true := by
        unfold Strm.validate Strm.validateControl Strm.validateRequest Strm.validatePush at hval
        repeat' split at hval
        all_goals first
          | (cases hval; rfl)
          | cases hval
      exact failed_ok hd (eff_put hr) rfl (by rw [cur_put, rest.state, hst]; decide) hl hne hk
    | ok s2 =>
      rw [hval] at hk
      dsimp only at hk
      rw [transition_one] at hk
      dsimp only at hk
      rw [put_setStrm] at hk
      obtain ⟨g1, g2, g3⟩ := gram_validate (fun e => by rw [rest.isLocal]; exact hl.loc e) (k1.rest rest) (k4.rest rest) hval
      refine again_ok (s := s) (bs := bs) (r1 := r1) (s2 := { s2 with
          frameType := some v, buf := [], state := .framePayloadLen, off := 0, len := 1 }) hl.wf hr hne
          (.refl _ _) (cur_put _ _ _ _) (put_rx _ _ _ _) rfl ?_ hk
      refine hlive _ _ ?_ (g3.trans rest.isLocal) (by rw [hst]; decide)
      have := Match.fl (limit := c.limit) (id := id) (peer := c.peerStream id) (s := { s2 with
          frameType := some v, buf := [], state := .framePayloadLen, off := 0, len := 1 }) (a := s1.buf)
          (t := v) (fs := fs) g1 rfl k2 rfl iv (varBuf_new rfl rfl rfl) g2 k5
      rw [b1] at this
      simpa using this

theorem payloadState_spec {s : Strm} {t n : Nat} {st : SState} {b : Bool} (ht : s.frameType = some t)
    (h : s.payloadState n = .ok (st, b)) :
    (st = .data ∧ t = 0 ∧ b = false) ∨ (st = .framePayload ∧ t ≠ 0 ∧ (n = 0 → t ≠ 5)) ∨
      (st = .skipFramePayload ∧ t ∉ knownFrames ∧ b = false) := by
  unfold Strm.payloadState at h
  rw [ht] at h
  simp only [tData, tHeaders, tCancelPush, tGoAway, tMaxPush, tSettings, tPushPromise, tPrioRequest, tPrioPush] at h
  unfold knownFrames
  simp only [List.mem_cons, List.not_mem_nil, or_false]
  repeat' split at h
  all_goals first
    | (cases h; exact .inl ⟨rfl, by assumption, rfl⟩)
    | (cases h; exact .inr (.inl ⟨rfl, by omega, by omega⟩))
    | (cases h; exact .inr (.inr ⟨rfl, by omega, rfl⟩))
    | cases h

theorem payloadState_err {s : Strm} {n : Nat} {e : Err} (h : s.payloadState n = .error e) :
    e = .excessiveLoad ∨ e = .frameError := by
  unfold Strm.payloadState at h
  repeat' split at h
  all_goals first
    | (cases h; simp; done)
    | cases h

/-- The length of a frame. -/
theorem iter_fl {spare : Nat → Nat → Nat} {polling : Bool} {id : Nat} {c c' : C} {s : Strm} {out : List Out}
    {st : Step} (hd : c.dead = false) (hs : c.streams id = some s)
    (hl : Live c.limit id (c.peerStream id) s (c.rx id) out) (hst : s.state = .framePayloadLen)
    (h : C.iter spare polling id c = (st, c')) : IterOk id polling c out st c' := by
  unfold C.iter at h
  rw [hs] at h
  simp only [hst] at h
  have key : ∀ pre o, Match c.limit id (c.peerStream id) s pre o → ∃ hdr fs body t a, Head id s hdr ∧
      Frames fs body ∧ s.frameType = some t ∧ IsVarint t a ∧ VarBuf s ∧
      Gram id (c.peerStream id) s (fs.map (·.1) ++ [t]) ∧ NoPush id (c.peerStream id) fs ∧
      pre = hdr ++ body ++ (a ++ s.buf) ∧ o = framesOut c.limit fs := by
    intro pre o m
    cases m with
    | start _ h2 => rw [hst] at h2; cases h2
    | other _ h2 => rw [hst] at h2; simp at h2
    | ft _ h2 => rw [hst] at h2; cases h2
    | fl h1 _ h3 h4 h5 h6 h7 h8 => exact ⟨_, _, _, _, _, h1, h3, h4, h5, h6, h7, h8, rfl, rfl⟩
    | fp _ h2 => rw [hst] at h2; cases h2
    | sk _ h2 => rw [hst] at h2; cases h2
    | da _ h2 => rw [hst] at h2; cases h2
  have hv : VarBuf s := by
    obtain ⟨k, _, m, _⟩ := hl.hist
    obtain ⟨_, _, _, _, _, _, _, _, _, hv, _⟩ := key _ _ m
    exact hv
  refine var_ok hd hl (cur_some hs) hv (by rw [hst]; simp) ?_ ?_ h
  · intro pre m s1 bs r1 b1 v1
    obtain ⟨hdr, fs, body, t, a, k1, k2, k3, k4, _, k6, k7, rfl, rfl⟩ := key pre _ m
    rw [List.append_assoc, List.append_assoc a, ← b1]
    exact .fl (k1.rest r1) (r1.state.trans hst) k2 (r1.frameType.trans k3) k4 v1 (k6.rest r1) k7
  · intro v s1 r1 bs pre m rest b1 iv hne hr hlive hk
    obtain ⟨hdr, fs, body, t, a, k1, k2, k3, k4, _, k6, k7, rfl, rfl⟩ := key pre _ m
    have hft : s1.frameType = some t := rest.frameType.trans k3
    have hfr : s1.framed = true := by
      have := k1.rest rest
      unfold Strm.framed
      cases hb : isBidi id with
      | true => rw [(head_bidi hb this).1]; rfl
      | false => rw [(head_uni hb this).1]; rfl
    unfold C.applied Strm.setFramePayloadLen at hk
    rw [hfr] at hk
    simp only [Bool.not_true, Bool.false_eq_true, if_false] at hk
    cases hp : s1.payloadState v with
    | error e =>
      rw [hp] at hk
      dsimp only at hk
      rw [put_setStrm] at hk
      have hne : e.hard = true := by
        rcases payloadState_err hp with rfl | rfl <;> rfl
      exact failed_ok hd (eff_put hr) rfl (by rw [cur_put, rest.state, hst]; decide) hl hne hk
    | ok x =>
      obtain ⟨stt, rs⟩ := x
      rw [hp] at hk
      dsimp only at hk
      unfold Strm.transition at hk
      split at hk
      · rename_i s2 e2 hx
        split at hx
        · cases hx
          rw [put_setStrm] at hk
          exact failed_ok hd (eff_put hr) rfl (by rw [cur_put]; show s1.state ≠ _; rw [rest.state, hst]; decide) hl (by decide) hk
        · cases hx
      · rename_i s2 hx
        split at hx
        · cases hx
        cases hx
        rw [put_setStrm] at hk
        refine again_ok (s := s) (bs := bs) (r1 := r1) (s2 := { s1 with
          buf := [], state := stt, off := 0, len := v }) hl.wf hr hne
          (.refl _ _) (cur_put _ _ _ _) (put_rx _ _ _ _) rfl ?_ hk
        refine hlive _ _ ?_ rest.isLocal (by rw [hst]; decide)
        have hg : Gram id (c.peerStream id) { s1 with buf := [], state := stt, off := 0, len := v } (fs.map (·.1) ++ [t]) := by
          have := k6.rest rest
          exact this
        have hh : Head id { s1 with buf := [], state := stt, off := 0, len := v } hdr := by
          have := k1.rest rest
          exact this
        rcases payloadState_spec hft hp with ⟨p1, p2, _⟩ | ⟨p1, p2, p3⟩ | ⟨p1, p2, _⟩
        · subst p1; subst p2
          have := Match.da (limit := c.limit) (id := id) (peer := c.peerStream id) (s := { s1 with
            buf := [], state := .data, off := 0, len := v }) (l := s1.buf) (p := []) hh rfl k2 hft k4 iv rfl (Nat.zero_le _) hg k7
          rw [b1] at this
          simpa using this
        · subst p1
          have := Match.fp (limit := c.limit) (id := id) (peer := c.peerStream id) (s := { s1 with
            buf := [], state := .framePayload, off := 0, len := v }) (l := s1.buf) hh rfl k2 hft k4 p2 iv rfl
            (by
              by_cases hz : v = 0
              · exact .inr ⟨hz, rfl, p3 hz⟩
              · exact .inl (by show 0 < v; omega)) hg k7
          rw [b1] at this
          simpa using this
        · subst p1
          have := Match.sk (limit := c.limit) (id := id) (peer := c.peerStream id) (s := { s1 with
            buf := [], state := .skipFramePayload, off := 0, len := v }) (l := s1.buf) (p := []) hh rfl k2 hft k4 p2 iv rfl (Nat.zero_le _) hg k7
          rw [b1] at this
          simpa using this

/-- Ending without a change that counts. -/
theorem ret_same {polling : Bool} {id : Nat} {c c1 : C} {s : Strm} {r1 : Rx} {out : List Out} {e : Err}
    (he : Eff id c c1) (hle : c1.localErr = c.localErr) (hcur : c1.cur id = s) (hrx : c1.rx id = r1)
    (hl : Live c.limit id (c.peerStream id) s r1 out) (hp : e ≠ .panic)
    (hx : ∀ x, e = .streamReset x → r1.err = some x) :
    IterOk id polling c out (.ret (.error e)) c1 := by
  refine ⟨he, by simpa using hp, .inl ⟨?_, hle, fun _ => ⟨e, rfl⟩, ?_, ?_⟩⟩
  · rw [hcur, hrx]; simpa [resOut] using hl
  · intro x hx'
    injection hx' with hx'
    rw [hrx]; exact hx x hx'
  · intro i ev hx'; cases hx'

theorem fillErr_ok {e : Err} {r : Rx} (h : FillErr (.err e) r) :
    e ≠ .panic ∧ ∀ x, e = .streamReset x → r.err = some x := by
  rcases h with h | h | h | ⟨h, _⟩ | ⟨x, h, h'⟩
  · cases h
  · cases h
  · cases h; exact ⟨by decide, (fun x c => by cases c)⟩
  · cases h; exact ⟨by decide, (fun x c => by cases c)⟩
  · cases h; exact ⟨by simp, (fun y c => by cases c; exact h')⟩

/-- The payload of a frame. -/
theorem iter_fp {spare : Nat → Nat → Nat} {polling : Bool} {id : Nat} {c c' : C} {s : Strm} {out : List Out}
    {st : Step} (hd : c.dead = false) (hpl : polling = true → c.localErr = none) (hs : c.streams id = some s)
    (hl : Live c.limit id (c.peerStream id) s (c.rx id) out) (hst : s.state = .framePayload)
    (h : C.iter spare polling id c = (st, c')) : IterOk id polling c out st c' := by
  unfold C.iter at h
  rw [hs] at h
  simp only [hst] at h
  split at h
  · cases h
    exact ret_same (.refl _ _) rfl (cur_some hs) rfl hl (by decide) (fun x c => by cases c)
  rename_i hpo
  have hle := hpl (by simpa using hpo)
  have key : ∀ pre o, Match c.limit id (c.peerStream id) s pre o → ∃ hdr fs body t a l, Head id s hdr ∧
      Frames fs body ∧ s.frameType = some t ∧ IsVarint t a ∧ t ≠ 0 ∧ IsVarint s.len l ∧ s.off = s.buf.length ∧
      (s.off < s.len ∨ s.len = 0 ∧ s.off = 0 ∧ t ≠ 5) ∧
      Gram id (c.peerStream id) s (fs.map (·.1) ++ [t]) ∧ NoPush id (c.peerStream id) fs ∧
      pre = hdr ++ body ++ (a ++ l ++ s.buf) ∧ o = framesOut c.limit fs := by
    intro pre o m
    cases m with
    | start _ h2 => rw [hst] at h2; cases h2
    | other _ h2 => rw [hst] at h2; simp at h2
    | ft _ h2 => rw [hst] at h2; cases h2
    | fl _ h2 => rw [hst] at h2; cases h2
    | fp h1 _ h3 h4 h5 h6 h7 h8 h9 h10 h11 => exact ⟨_, _, _, _, _, _, h1, h3, h4, h5, h6, h7, h8, h9, h10, h11, rfl, rfl⟩
    | sk _ h2 => rw [hst] at h2; cases h2
    | da _ h2 => rw [hst] at h2; cases h2
  cases hx : s.tryFill spare (c.rx id) with
  | mk f y =>
  obtain ⟨s1, r1⟩ := y
  rw [hx] at h
  have hle2 : s.off ≤ s.len := by
    obtain ⟨k, _, m, _⟩ := hl.hist
    obtain ⟨_, _, _, _, _, _, _, _, _, _, _, _, _, h9, _⟩ := key _ _ m
    omega
  obtain ⟨bs, h1, h2, h3, h4, h5, h6⟩ := tryFill_spec hl.wf hle2 hx
  obtain ⟨pre, p1, _, p3⟩ := hl.adv h2
  obtain ⟨hdr, fs, body, t, a, l, k1, k2, k3, k4, k5, k6, k7, k8, k9, k10, rfl, rfl⟩ := key pre _ p1
  have hrest := SameRest.of_commit h1
  have hbuf : s1.buf = s.buf ++ bs := h1.buf
  have hoff : s1.off = s.off + bs.length := h1.off
  have hlen : s1.len = s.len := h1.len
  have hnd : (c.rx id).drain = true → False := fun e => by
    have := hl.drain e; rw [hst] at this; cases this
  unfold C.filled at h
  cases f with
  | err e =>
    dsimp only at h
    cases h
    obtain ⟨q1, q2⟩ := fillErr_ok h5
    refine ret_same (eff_put h2) rfl (cur_put _ _ _ _) (put_rx _ _ _ _) ?_ q1 q2
    refine p3 s1 _ ?_ hrest.isLocal (fun e => (hnd e).elim)
    have := Match.fp (limit := c.limit) (id := id) (peer := c.peerStream id) (s := s1) (l := l) (k1.rest hrest)
      (hrest.state.trans hst) k2 (hrest.frameType.trans k3) k4 k5 (by rw [hlen]; exact k6)
      (by rw [hoff, hbuf, List.length_append, k7]) (.inl (h6 e rfl)) (k9.rest hrest) k10
    rw [hbuf] at this
    simpa using this
  | closedCritical =>
    dsimp only at h
    exact failed_ok hd (eff_put h2) rfl (by rw [cur_put, hrest.state, hst]; decide) hl (by decide) h
  | ok =>
    dsimp only at h
    have hfull := h4 rfl
    have hbl : s1.buf.length = s1.len := by rw [hbuf, List.length_append, ← k7]; omega
    unfold Strm.tryFrame at h
    rw [hrest.frameType.trans k3] at h
    dsimp only at h
    cases hf : fromBytes t s1.len s1.buf with
    | error e =>
      rw [hf] at h
      dsimp only at h
      rw [put_setStrm] at h
      rw [← hbl] at hf
      have hne : e.hard = true := by
        rcases fromBytes_err hf with rfl | ⟨_, rfl | rfl⟩ <;> rfl
      exact failed_ok hd (eff_put h2) rfl (by rw [cur_put]; show s1.state ≠ _; rw [hrest.state, hst]; decide) hl hne h
    | ok fr =>
      rw [hf] at h
      dsimp only at h
      rw [transition_one] at h
      dsimp only at h
      rw [put_setStrm] at h
      rw [← hbl] at hf
      obtain ⟨hcode, _⟩ := fromBytes_sound hf
      have hhd : ∀ b, fr = .headers b → t = 1 ∧ b = s1.buf := by
        intro b e
        have ht : t = 1 := by rw [← hcode, e]; rfl
        refine ⟨ht, ?_⟩
        rw [ht, e] at hf
        have : fromBytes 1 s1.buf.length s1.buf = .ok (.headers s1.buf) := parseRaw_all _ _
        rw [this] at hf
        cases hf; rfl
      have hhd' : t = 1 → fr = .headers s1.buf := by
        intro ht
        rw [ht] at hf
        have : fromBytes 1 s1.buf.length s1.buf = .ok (.headers s1.buf) := parseRaw_all _ _
        rw [this] at hf
        cases hf; rfl
      have hpp : t = 5 → ∃ i b, fr = .pushPromise i b := by
        intro ht
        rw [ht] at hcode
        unfold Frame.code at hcode
        cases fr with
        | pushPromise i b => exact ⟨i, b, rfl⟩
        | unknown t' b =>
          exfalso
          rw [ht] at hf
          simp only [fromBytes, tData, tHeaders, tCancelPush, tSettings, tPushPromise] at hf
          simp only [show ¬ (5 = 0) from by decide, show ¬ (5 = 1) from by decide, show ¬ (5 = 3) from by decide, show ¬ (5 = 4) from by decide, if_false, if_true, parseIdAnd] at hf
          repeat' split at hf
          all_goals cases hf
        | _ => simp at hcode
      generalize hs2 : ({ s1.rearm with buf := [], state := .frameType, off := 0, len := 1 } : Strm) = s2 at h
      cases hpf : (c.put id s2 r1).processFrame id fr with
      | mk res c2 =>
      rw [hpf] at h
      have hfe := processFrame_eff (c := c.put id s2 r1) hd hle hpf
      have heff : Eff id c c2 := (eff_put h2).trans hfe.eff
      have hcur : SameCore (c2.cur id) s2 := by have := hfe.cur; rw [cur_put] at this; exact this
      have hrx : c2.rx id = r1 := by rw [hfe.rx, put_rx]
      have hmatch : (c.peerStream id = true → isBidi id = true → t ≠ 5) →
          Live c.limit id (c.peerStream id) (c2.cur id) (c2.rx id) (framesOut c.limit fs ++ frameOut c.limit (t, s1.buf)) := by
        intro hnp
        rw [hrx]
        refine Live.congr hcur (p3 s2 _ ?_ (by rw [← hs2]; exact hrest.isLocal) (fun e => (hnd e).elim))
        have hcore : SameRest s2 s1 → True := fun _ => trivial
        have := Match.ft (limit := c.limit) (id := id) (peer := c.peerStream id) (s := s2) (hdr := hdr)
          (fs := fs ++ [(t, s1.buf)]) (body := body ++ (a ++ l ++ s1.buf))
          (by rw [← hs2]; have := k1.rest hrest; exact this) (by rw [← hs2])
          (.snoc k2 ⟨a, l, rfl, k4, by rw [hbl, hlen]; exact k6⟩) (by rw [← hs2]; exact varBuf_new rfl rfl rfl)
          (by rw [← hs2, List.map_append]; have := k9.rest hrest; exact this)
          (by
            intro hb hp f hf
            rcases List.mem_append.mp hf with hf | hf
            · exact k10 hb hp f hf
            · rw [List.mem_singleton.mp hf]; exact hnp hp hb)
        rw [framesOut_snoc] at this
        have hb2 : s2.buf = [] := by rw [← hs2]
        rw [hb2, hbuf] at this
        rw [hbuf]
        simpa using this
      have hnop : (∀ b, fr ≠ .headers b) → frameOut c.limit (t, s1.buf) = [] :=
        fun hh => frameOut_other k5 (fun ht => hh _ (hhd' ht))
      have hpeer : (c.put id s2 r1).peerStream id = c.peerStream id := rfl
      have hlim : (c.put id s2 r1).limit = c.limit := rfl
      have hlec : (c.put id s2 r1).localErr = c.localErr := rfl
      have hpot : (c2.cur id).state = .frameType := by rw [hcur.state, ← hs2]
      unfold C.afterFrame at h
      rcases hfe.outcome with ⟨o1, o2, o3, o4⟩ | ⟨e, o1, o3, o4⟩ | ⟨b, hds, more, o1, o2, o3, o4⟩ | ⟨g, o1, o2, o3⟩ | ⟨el, pv, o1, o2, o3⟩
      · rw [o1] at h
        dsimp only at h
        have hlv := hmatch (fun hp _ ht => by
          obtain ⟨i, b, e⟩ := hpp ht
          have := o4 i b e
          rw [hpeer, hp] at this; cases this)
        rw [hnop o3, List.append_nil] at hlv
        split at h
        · cases h
          exact ret_same heff (by rw [o2, hlec]) rfl rfl hlv (by decide) (fun x c => by cases c)
        · cases h
          refine ⟨heff, hlv, by rw [o2, hlec], ?_⟩
          unfold pot
          rw [hpot, hrx, cur_some hs, hst]
          have := avail_rd h2 hl.wf
          simp only [reduceCtorEq, or_false, or_self, if_true, if_false]
          omega
      · rw [o1] at h
        have : (Step.ret (.error e), c2) = (st, c') := by
          cases e <;> first | exact h | cases o3
        cases this
        obtain ⟨k, k1', k2', _⟩ := hl.hist
        exact ⟨heff, by simpa using Err.hard_panic o3, .inr ⟨⟨o4, by rw [hpot]; decide, k, by rw [heff.all]; exact k1',
          by rw [heff.all]; exact k2'.good⟩, e, rfl, fun _ => o3⟩⟩
      · rw [o2] at h
        cases h
        obtain ⟨ht, hb⟩ := hhd b o1
        have hlv := hmatch (fun _ _ c => by rw [ht] at c; cases c)
        have : frameOut c.limit (t, s1.buf) = [.headers hds] := by
          unfold frameOut
          rw [ht, if_pos rfl]
          rw [hb, hlim] at o4
          dsimp only
          rw [o4]
        rw [this] at hlv
        refine ⟨heff, by simp, .inl ⟨hlv, by rw [o3, hlec], fun c => ?_, fun x c => (by cases c), fun i ev c => (by cases c; exact .inr (.inl ⟨_, _, rfl, rfl⟩))⟩⟩
        rw [c] at hpo; exact absurd rfl hpo
      · rw [o2] at h
        cases h
        have hnh : ∀ b, fr ≠ .headers b := fun b c => by rw [o1] at c; cases c
        have hlv := hmatch (fun _ _ ht => by obtain ⟨i, b, e⟩ := hpp ht; rw [o1] at e; cases e)
        rw [hnop hnh] at hlv
        refine ⟨heff, by simp, .inl ⟨hlv, by rw [o3, hlec], fun c => ?_, fun x c => (by cases c), fun i ev c => (by cases c; exact .inr (.inr (.inl rfl)))⟩⟩
        rw [c] at hpo; exact absurd rfl hpo
      · rw [o2] at h
        cases h
        have hnh : ∀ b, fr ≠ .headers b := fun b c => by rw [o1] at c; cases c
        have hlv := hmatch (fun _ _ ht => by obtain ⟨i, b, e⟩ := hpp ht; rw [o1] at e; cases e)
        rw [hnop hnh] at hlv
        refine ⟨heff, by simp, .inl ⟨hlv, by rw [o3, hlec], fun c => ?_, fun x c => (by cases c), fun i ev c => (by cases c; exact .inr (.inr (.inr rfl)))⟩⟩
        rw [c] at hpo; exact absurd rfl hpo

/-- A frame that is skipped. -/
theorem iter_sk {spare : Nat → Nat → Nat} {polling : Bool} {id : Nat} {c c' : C} {s : Strm} {out : List Out}
    {st : Step} (hd : c.dead = false) (hs : c.streams id = some s)
    (hl : Live c.limit id (c.peerStream id) s (c.rx id) out) (hst : s.state = .skipFramePayload)
    (h : C.iter spare polling id c = (st, c')) : IterOk id polling c out st c' := by
  unfold C.iter at h
  rw [hs] at h
  simp only [hst] at h
  have key : ∀ pre o, Match c.limit id (c.peerStream id) s pre o → ∃ hdr fs body t a l p, Head id s hdr ∧
      Frames fs body ∧ s.frameType = some t ∧ IsVarint t a ∧ t ∉ knownFrames ∧ IsVarint s.len l ∧ s.off = p.length ∧
      s.off ≤ s.len ∧
      Gram id (c.peerStream id) s (fs.map (·.1) ++ [t]) ∧ NoPush id (c.peerStream id) fs ∧
      pre = hdr ++ body ++ (a ++ l ++ p) ∧ o = framesOut c.limit fs := by
    intro pre o m
    cases m with
    | start _ h2 => rw [hst] at h2; cases h2
    | other _ h2 => rw [hst] at h2; simp at h2
    | ft _ h2 => rw [hst] at h2; cases h2
    | fl _ h2 => rw [hst] at h2; cases h2
    | fp _ h2 => rw [hst] at h2; cases h2
    | sk h1 _ h3 h4 h5 h6 h7 h8 h9 h10 h11 => exact ⟨_, _, _, _, _, _, _, h1, h3, h4, h5, h6, h7, h8, h9, h10, h11, rfl, rfl⟩
    | da _ h2 => rw [hst] at h2; cases h2
  have hle2 : s.off ≤ s.len := by
    obtain ⟨k, _, m, _⟩ := hl.hist
    obtain ⟨_, _, _, _, _, _, _, _, _, _, _, _, _, _, h9, _⟩ := key _ _ m
    exact h9
  unfold Strm.trySkipFrame at h
  cases hx : s.trySkipData (c.rx id) with
  | mk f y =>
  obtain ⟨s1, r1⟩ := y
  rw [hx] at h
  obtain ⟨bs, h2, h3, h5, h6, h7, h8⟩ := trySkip_spec hl.wf hle2 hx
  obtain ⟨pre, p1, _, p3⟩ := hl.adv h2
  obtain ⟨hdr, fs, body, t, a, l, p, k1, k2, k3, k4, k5, k6, k7, k8, k9, k10, rfl, rfl⟩ := key pre _ p1
  have hnd : (c.rx id).drain = true → False := fun e => by
    have := hl.drain e; rw [hst] at this; cases this
  unfold C.filled at h
  cases f with
  | err e =>
    dsimp only at h
    cases h
    have hcore := h6 (by simp)
    obtain ⟨q1, q2⟩ := fillErr_ok h5
    refine ret_same (eff_put h2) rfl (cur_put _ _ _ _) (put_rx _ _ _ _) ?_ q1 q2
    refine Live.congr hcore (p3 _ _ ?_ rfl (fun e => (hnd e).elim))
    have := Match.sk (limit := c.limit) (id := id) (peer := c.peerStream id) (s := { s with off := s.off + bs.length })
      (l := l) (p := p ++ bs) k1
      hst k2 k3 k4 k5 k6 (by rw [List.length_append, ← k7]) h3 k9 k10
    simpa using this
  | closedCritical =>
    dsimp only at h
    have hcore := h7 rfl
    exact failed_ok hd (eff_put h2) rfl (by rw [cur_put, hcore.state, hst]; decide) hl (by decide) h
  | ok =>
    dsimp only at h
    rw [transition_one] at h
    dsimp only at h
    have hcore := h6 (by simp)
    have hlen : s.off + bs.length = s.len := by
      have a1 := h8 rfl
      have a2 : s1.off = s.off + bs.length := hcore.off
      have a3 : s1.len = s.len := hcore.len
      omega
    generalize hs2 : ({ s1.rearm with buf := [], state := .frameType, off := 0, len := 1 } : Strm) = s2 at h
    have hlive : Live c.limit id (c.peerStream id) s2 r1 (framesOut c.limit fs) := by
      have hrest : SameRest s2 { s with state := .frameType } := by
        rw [← hs2]
        exact ⟨hcore.ty, rfl, hcore.frameType, hcore.isLocal, hcore.remoteInit, hcore.dataReceived,
          hcore.trailersReceived, hcore.maxHeaders, hcore.maxPrio⟩
      refine p3 s2 _ ?_ hrest.isLocal (fun e => (hnd e).elim)
      have ht0 : t ≠ 0 := by intro c; rw [c] at k5; exact k5 (by decide)
      have ht1 : t ≠ 1 := by intro c; rw [c] at k5; exact k5 (by decide)
      have ht5 : t ≠ 5 := by intro c; rw [c] at k5; exact k5 (by decide)
      have := Match.ft (limit := c.limit) (id := id) (peer := c.peerStream id) (s := s2) (hdr := hdr)
          (fs := fs ++ [(t, p ++ bs)]) (body := body ++ (a ++ l ++ (p ++ bs)))
          (by have : Head id { s with state := .frameType } hdr := k1
              exact this.rest hrest) (by rw [← hs2])
          (.snoc k2 ⟨a, l, rfl, k4, by rw [List.length_append, ← k7, hlen]; exact k6⟩)
          (by rw [← hs2]; exact varBuf_new rfl rfl rfl)
          (by
            rw [List.map_append]
            have : Gram id (c.peerStream id) { s with state := .frameType } (fs.map (·.1) ++ [t]) := k9
            exact this.rest hrest)
          (by
            intro hb hp f hf
            rcases List.mem_append.mp hf with hf | hf
            · exact k10 hb hp f hf
            · rw [List.mem_singleton.mp hf]; exact ht5)
      rw [framesOut_snoc, frameOut_other (f := (t, p ++ bs)) ht0 ht1, List.append_nil] at this
      have hb2 : s2.buf = [] := by rw [← hs2]
      rw [hb2] at this
      simpa using this
    split at h
    · cases h
      exact ret_same (eff_put h2) rfl (cur_put _ _ _ _) (put_rx _ _ _ _) hlive (by decide) (fun x c => by cases c)
    · cases h
      refine ⟨eff_put h2, by rw [cur_put, put_rx]; exact hlive, rfl, ?_⟩
      unfold pot
      rw [put_rx, cur_put, cur_some hs, hst]
      have hpot : s2.state = .frameType := by rw [← hs2]
      rw [hpot]
      have := avail_rd h2 hl.wf
      simp only [reduceCtorEq, or_true, or_self, if_true, if_false]
      omega

/-- The payload of a DATA frame. -/
theorem iter_da {spare : Nat → Nat → Nat} {polling : Bool} {id : Nat} {c c' : C} {s : Strm} {out : List Out}
    {st : Step} (hs : c.streams id = some s)
    (hl : Live c.limit id (c.peerStream id) s (c.rx id) out) (hst : s.state = .data)
    (h : C.iter spare polling id c = (st, c')) : IterOk id polling c out st c' := by
  unfold C.iter at h
  rw [hs] at h
  simp only [hst] at h
  split at h
  · cases h
    exact ret_same (.refl _ _) rfl (cur_some hs) rfl hl (by decide) (fun x c => by cases c)
  rename_i hpo
  split at h
  · cases h
    exact ret_same (.refl _ _) rfl (cur_some hs) rfl hl (by decide) (fun x c => by cases c)
  · cases h
    have hc : SameCore { s with state := .data, dataTriggered := true } s :=
      ⟨rfl, hst.symm, rfl, rfl, rfl, rfl, rfl, rfl, rfl, rfl, rfl, rfl⟩
    refine ⟨eff_setStrm (by rw [cur_some hs]; exact hc), by simp, .inl ⟨?_, rfl, fun c => ?_, fun x c => (by cases c), fun i ev c => (by cases c; exact .inl ⟨rfl, rfl⟩)⟩⟩
    · rw [cur_setStrm]
      have : Live c.limit id (c.peerStream id) { s with state := .data, dataTriggered := true } (c.rx id) out := hl.congr hc
      simpa [resOut, C.setStrm] using this
    · rw [c] at hpo; exact absurd rfl hpo

theorem countQpack_eff {id : Nat} {c : C} {s : Strm} {n : Nat} : Eff id c (c.countQpack s n) ∧
    (c.countQpack s n).rx = c.rx ∧ (c.countQpack s n).streams = c.streams ∧
    (c.countQpack s n).localErr = c.localErr := by
  unfold C.countQpack
  split <;> exact ⟨eff_same rfl rfl rfl rfl rfl (fun _ => rfl) rfl rfl, rfl, rfl, rfl⟩

theorem cur_congr {c c' : C} (h1 : c'.streams = c.streams) (h2 : c'.maxField = c.maxField)
    (h3 : c'.maxPrio = c.maxPrio) (id : Nat) : c'.cur id = c.cur id := by
  unfold C.cur C.fresh; rw [h1, h2, h3]

/-- The instructions of QPACK streams are read and dropped. -/
theorem qpackLoop_ok {polling : Bool} {id : Nat} {s : Strm} {out : List Out} : ∀ {k : Nat} {c0 c c' : C} {st : Step},
    c0.dead = false → Eff id c0 c → c.localErr = c0.localErr → c.cur id = s →
    Live c0.limit id (c0.peerStream id) s (c0.rx id) out →
    Live c.limit id (c.peerStream id) s (c.rx id) out → s.state = .qpackInstruction →
    (c.rx id).avail.length + 2 ≤ k →
    C.qpackLoop id s k c = (st, c') → IterOk id polling c0 out st c' := by
  intro k
  induction k with
  | zero => intro c0 c c' st _ _ _ _ _ _ _ hk; omega
  | succ k ih =>
    intro c0 c c' st hd he hle hcur hl0 hl hst hk h
    unfold C.qpackLoop at h
    cases hr : (c.rx id).recv 4096 with
    | mk res r1 =>
    rw [hr] at h
    cases res with
    | error e =>
      dsimp only at h
      cases h
      obtain ⟨g1, g2⟩ := recv_err hl.wf hr
      obtain ⟨pre, p1, _, p3⟩ := hl.adv g1
      have hlv := p3 s out (by rw [List.append_nil]; exact p1) rfl hl.drain
      have hlim : c.limit = c0.limit := by unfold C.limit; rw [he.maxField]
      have hpe : c.peerStream id = c0.peerStream id := by unfold C.peerStream; rw [he.isServer]
      rw [hlim, hpe] at hlv
      refine ret_same (he.trans (eff_setRx g1)) hle hcur (by simp [C.setRx, upd]) hlv ?_ ?_
      · rcases g2 with rfl | ⟨rfl, _⟩ | ⟨x, rfl, _⟩ <;> simp
      · intro x hx
        rcases g2 with rfl | ⟨rfl, _⟩ | ⟨y, rfl, hy⟩
        · cases hx
        · cases hx
        · cases hx; rw [g1.err]; exact hy
    | ok x =>
      obtain ⟨bs, fin⟩ := x
      dsimp only at h
      obtain ⟨g1, g2, g3, g4, g5, g6, g7⟩ := recv_ok hl.wf hr
      have he1 : Eff id c0 (c.setRx id r1) := he.trans (eff_setRx g1)
      obtain ⟨q1, q2, q3, q4⟩ := countQpack_eff (id := id) (c := c.setRx id r1) (s := s) (n := bs.length)
      have he2 := he1.trans q1
      have hcur2 : ((c.setRx id r1).countQpack s bs.length).cur id = s := by
        rw [cur_congr q3 q1.maxField q1.maxPrio]; exact hcur
      have hrx2 : ((c.setRx id r1).countQpack s bs.length).rx id = r1 := by
        rw [q2]; simp [C.setRx, upd]
      split at h
      · exact failed_ok hd he2 (by rw [q4]; exact hle) (by rw [hcur2, hst]; decide) hl0 (by decide) h
      · rename_i hfin
        obtain ⟨pre, p1, _, p3⟩ := hl.adv g1
        have hlv : Live c.limit id (c.peerStream id) s r1 out := by
          refine p3 s out ?_ rfl hl.drain
          cases p1 with
          | start _ h2 => rw [hst] at h2; cases h2
          | @other v x y h1 h2 h3 h4 =>
            have := Match.other (limit := c.limit) (peer := c.peerStream id) (s := s) (y := y ++ bs) h1 h2 h3 h4
            simpa using this
          | ft _ h2 => rw [hst] at h2; cases h2
          | fl _ h2 => rw [hst] at h2; cases h2
          | fp _ h2 => rw [hst] at h2; cases h2
          | sk _ h2 => rw [hst] at h2; cases h2
          | da _ h2 => rw [hst] at h2; cases h2
        refine ih hd he2 (by rw [q4]; exact hle) hcur2 hl0 ?_ hst ?_ h
        · rw [hrx2]
          have a1 : ((c.setRx id r1).countQpack s bs.length).limit = c.limit := by
            unfold C.limit; rw [q1.maxField]; rfl
          have a2 : ((c.setRx id r1).countQpack s bs.length).peerStream id = c.peerStream id := by
            unfold C.peerStream; rw [q1.isServer]; rfl
          rw [a1, a2]; exact hlv
        · rw [hrx2]
          have := avail_rd g1 hl.wf
          have hb : bs ≠ [] := fun e => g7 (by decide) e (by simpa using hfin)
          have := List.length_pos_iff.mpr hb
          omega

/-- Streams without frames. -/
theorem iter_other {spare : Nat → Nat → Nat} {polling : Bool} {id : Nat} {c c' : C} {s : Strm} {out : List Out}
    {st : Step} (hd : c.dead = false) (hs : c.streams id = some s)
    (hl : Live c.limit id (c.peerStream id) s (c.rx id) out) (hst : s.state = .qpackInstruction ∨ s.state = .drain)
    (h : C.iter spare polling id c = (st, c')) : IterOk id polling c out st c' := by
  unfold C.iter at h
  rw [hs] at h
  rcases hst with hst | hst
  · simp only [hst] at h
    exact qpackLoop_ok hd (.refl _ _) rfl (cur_some hs) hl hl hst (Nat.le_refl _) h
  · simp only [hst] at h
    unfold Rx.shutdown at h
    split at h
    · rename_i e r hx
      split at hx
      · cases hx
        cases h
        refine ret_same (eff_setRx (.refl hl.wf)) rfl (cur_some hs) (by simp [C.setRx, upd]) hl (by decide) (fun x c => by cases c)
      · cases hx
    · rename_i r hx
      split at hx
      · cases hx
      · rename_i hg
        cases hx
        cases h
        have hgone : (c.rx id).gone = false := by
          simp only [Bool.or_eq_true, not_or] at hg; simpa using hg.1
        have hwf2 : ({ c.rx id with drain := true, marker := false, off := (c.rx id).all.length } : Rx).WF :=
          ⟨Nat.le_refl _, fun e => ⟨(hl.wf.err e).1, rfl⟩, fun e => ⟨(hl.wf.gone e).1, rfl⟩, (fun c => by cases c)⟩
        refine ret_same (r1 := { c.rx id with drain := true, marker := false, off := (c.rx id).all.length }) ?_ rfl (cur_some hs) (by simp [C.setRx, upd]) ?_ (by decide) (fun x c => by cases c)
        · exact ⟨rfl, rfl, rfl, rfl, rfl, fun _ => rfl, fun j hj => upd_other _ _ hj, by simp [C.setRx, upd],
            by simp [C.setRx, upd], by simp [C.setRx, upd], (fun e => by rw [hgone] at e; cases e),
            fun j _ => ⟨.refl _, fun h => h⟩, fun h => h, by simp only [C.setRx, upd_same]; exact hl.wf.off⟩
        · refine ⟨hwf2, ⟨_, Nat.le_refl _, ?_, fun _ => rfl⟩, hl.loc, fun _ => hst⟩
          obtain ⟨k, k1, m, _⟩ := hl.hist
          have hall : (c.rx id).all = (c.rx id).all.take k ++ (c.rx id).all.drop k := by simp
          show Match c.limit id (c.peerStream id) s ((c.rx id).all.take (c.rx id).all.length) out
          rw [List.take_length, hall]
          generalize (c.rx id).all.take k = pre at m
          cases m with
          | start _ h2 => rw [hst] at h2; cases h2
          | @other v x y h1 h2 h3 h4 =>
            have := Match.other (limit := c.limit) (peer := c.peerStream id) (s := s) (y := y ++ (c.rx id).all.drop k) h1 h2 h3 h4
            rw [List.append_assoc]; exact this
          | ft _ h2 => rw [hst] at h2; cases h2
          | fl _ h2 => rw [hst] at h2; cases h2
          | fp _ h2 => rw [hst] at h2; cases h2
          | sk _ h2 => rw [hst] at h2; cases h2
          | da _ h2 => rw [hst] at h2; cases h2

/-- An iteration. -/
theorem iter_ok {spare : Nat → Nat → Nat} {polling : Bool} {id : Nat} {c c' : C} {s : Strm} {out : List Out}
    {st : Step} (hd : c.dead = false) (hpl : polling = true → c.localErr = none) (hs : c.streams id = some s)
    (hl : Live c.limit id (c.peerStream id) s (c.rx id) out)
    (h : C.iter spare polling id c = (st, c')) : IterOk id polling c out st c' := by
  obtain ⟨k, _, m, _⟩ := hl.hist
  generalize (c.rx id).all.take k = pre at m
  cases m with
  | start _ h2 => exact iter_start hd hs hl h2 h
  | other _ h2 => exact iter_other hd hs hl h2 h
  | ft _ h2 => exact iter_ft hd hs hl h2 h
  | fl _ h2 => exact iter_fl hd hs hl h2 h
  | fp _ h2 => exact iter_fp hd hpl hs hl h2 h
  | sk _ h2 => exact iter_sk hd hs hl h2 h
  | da _ h2 => exact iter_da hs hl h2 h

/-- The loop. -/
theorem loop_ok {spare : Nat → Nat → Nat} {polling : Bool} {id : Nat} {out : List Out} : ∀ {k : Nat} {c c' : C} {s : Strm}
    {res : Res}, c.dead = false → (polling = true → c.localErr = none) → c.streams id = some s →
    Live c.limit id (c.peerStream id) s (c.rx id) out → pot id c < k →
    C.loop spare polling id k c = (res, c') → Ret id polling c out res c' := by
  intro k
  induction k with
  | zero => intro c c' s res _ _ _ _ hk; omega
  | succ k ih =>
    intro c c' s res hd hpl hs hl hk h
    unfold C.loop at h
    cases hi : C.iter spare polling id c with
    | mk st c1 =>
    rw [hi] at h
    have hok := iter_ok hd hpl hs hl hi
    cases st with
    | ret r =>
      cases h
      exact hok
    | again =>
      dsimp only at h
      obtain ⟨g1, g2, g3, g4⟩ := hok
      have hlim : c1.limit = c.limit := by unfold C.limit; rw [g1.maxField]
      have hpe : c1.peerStream id = c.peerStream id := by unfold C.peerStream; rw [g1.isServer]
      have hsome := g1.some (by rw [hs]; simp)
      cases hs1 : c1.streams id with
      | none => exact absurd hs1 hsome
      | some s1 =>
        rw [cur_some hs1, ← hlim, ← hpe] at g2
        have hret := ih (by rw [g1.dead]; exact hd) (fun e => by rw [g3]; exact hpl e) hs1 g2 (by omega) h
        refine ⟨g1.trans hret.eff, hret.panic, ?_⟩
        have ho := hret.out
        rw [hlim, hpe, g3] at ho
        exact ho

theorem ensure_some (c : C) (id : Nat) : ∃ s, (c.ensure id).streams id = some s ∧ s = c.cur id := by
  unfold C.ensure C.cur
  cases hs : c.streams id with
  | none => exact ⟨c.fresh id, by simp [C.setStrm, upd], by simp⟩
  | some s => exact ⟨s, hs, by simp⟩

theorem ensure_eff (c : C) (id : Nat) : Eff id c (c.ensure id) ∧ (c.ensure id).rx = c.rx ∧
    (c.ensure id).localErr = c.localErr := by
  unfold C.ensure
  cases hs : c.streams id with
  | none =>
    refine ⟨eff_setStrm ?_, rfl, rfl⟩
    unfold C.cur
    rw [hs]
    exact .refl _
  | some s => exact ⟨.refl _ _, rfl, rfl⟩

/-- `process_readable_stream`. -/
theorem processStream_ok {spare : Nat → Nat → Nat} {polling : Bool} {id : Nat} {out : List Out} {c c' : C} {res : Res}
    (hd : c.dead = false) (hpl : polling = true → c.localErr = none)
    (hl : Live c.limit id (c.peerStream id) (c.cur id) (c.rx id) out)
    (h : c.processStream spare polling id = (res, c')) : Ret id polling c out res c' := by
  unfold C.processStream at h
  obtain ⟨s, h1, h2⟩ := ensure_some c id
  obtain ⟨e1, e2, e3⟩ := ensure_eff c id
  have hlim : (c.ensure id).limit = c.limit := by unfold C.limit; rw [e1.maxField]
  have hpe : (c.ensure id).peerStream id = c.peerStream id := by unfold C.peerStream; rw [e1.isServer]
  have hret := loop_ok (by rw [e1.dead]; exact hd) (fun e => by rw [e3]; exact hpl e) h1
    (by rw [hlim, hpe, e2, h2]; exact hl) (by unfold pot C.fuel; split <;> omega) h
  refine ⟨e1.trans hret.eff, hret.panic, ?_⟩
  have ho := hret.out
  rw [hlim, hpe, e3] at ho
  exact ho

end Verif.H3
