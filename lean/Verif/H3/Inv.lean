import Verif.H3.Live

/-! An invariant of executions: what each stream has given is what the bytes read say. -/

namespace Verif.H3
open Verif

/-- The stream has been read to the end. -/
structure Closed (id : Nat) (c : C) (out : List Out) : Prop where
  wf : (c.rx id).WF
  fin : (c.rx id).finished = true
  entry : SameCore (c.cur id) (c.fresh id) ∨ (c.cur id).state = .finished
  hist : ∃ k, k ≤ (c.rx id).all.length ∧ Good c.limit id (c.peerStream id) ((c.rx id).all.take k) out ∧
    ((c.rx id).err = none → k = (c.rx id).all.length)

/-- The stream is being read. -/
def Open (id : Nat) (c : C) (out : List Out) : Prop :=
  Live c.limit id (c.peerStream id) (c.cur id) (c.rx id) out

/-- The connection was closed because of the stream. -/
def Broken (id : Nat) (c : C) (out : List Out) : Prop := Stuck c.limit id (c.peerStream id) c out

/-- No transport stream has existed. -/
structure Unused (id : Nat) (c : C) (out : List Out) : Prop where
  rx : c.rx id = { gone := true }
  out : out = []
  entry : SameCore (c.cur id) (c.fresh id)

def Mode (c : C) (u : Bool) (id : Nat) (out : List Out) : Prop :=
  (u = false ∧ Unused id c out) ∨ (u = true ∧ (Open id c out ∨ Closed id c out ∨ Broken id c out))

structure Inv (cf : Bool × Option Nat) (c : C) (used : Nat → Bool) (log : Nat → List Out) : Prop where
  conf : (c.isServer, c.maxField) = cf
  dead : c.dead = false
  mode : ∀ id, Mode c (used id) id (log id)
  fins : ∀ id, id ∈ c.finished → used id = true ∧ (Closed id c (log id) ∨ Broken id c (log id))

variable {cf : Bool × Option Nat}

/-- For the stream `j`, `c'` is as `c`. -/
structure Same (j : Nat) (c c' : C) : Prop where
  isServer : c'.isServer = c.isServer
  maxField : c'.maxField = c.maxField
  maxPrio : c'.maxPrio = c.maxPrio
  lerr : c.localErr.isSome = true → c'.localErr.isSome = true
  rx : c'.rx j = c.rx j
  cur : SameCore (c'.cur j) (c.cur j)

theorem Eff.same {id j : Nat} {c c' : C} (h : Eff id c c') (hj : j ≠ id) : Same j c c' :=
  ⟨h.1, h.2, h.3, fun e => by rw [h.lerr e]; exact e, h.rx j hj, (h.strm j hj).1⟩

section
variable {id : Nat} {c c' : C} {out : List Out}

theorem Same.limit {j : Nat} (h : Same j c c') : c'.limit = c.limit := by unfold C.limit; rw [h.maxField]
theorem Same.peer {j : Nat} (h : Same j c c') (i : Nat) : c'.peerStream i = c.peerStream i := by
  unfold C.peerStream; rw [h.isServer]
theorem Same.fresh {j : Nat} (h : Same j c c') (i : Nat) : c'.fresh i = c.fresh i := by
  unfold C.fresh; rw [h.maxField, h.maxPrio]

theorem Open.same (h : Same id c c') (o : Open id c out) : Open id c' out := by
  unfold Open
  rw [h.limit, h.peer, h.rx]
  exact Live.congr h.cur o

theorem Closed.same (h : Same id c c') (o : Closed id c out) : Closed id c' out := by
  refine ⟨by rw [h.rx]; exact o.wf, by rw [h.rx]; exact o.fin, ?_, ?_⟩
  · rw [h.fresh, h.cur.state]
    rcases o.entry with e | e
    · exact .inl (h.cur.trans e)
    · exact .inr e
  · rw [h.rx, h.limit, h.peer]; exact o.hist

theorem Broken.same (h : Same id c c') (o : Broken id c out) : Broken id c' out := by
  refine ⟨h.lerr o.lerr, by rw [h.cur.state]; exact o.state, ?_⟩
  rw [h.rx, h.limit, h.peer]; exact o.hist

theorem Unused.same (h : Same id c c') (o : Unused id c out) : Unused id c' out :=
  ⟨by rw [h.rx]; exact o.rx, o.out, by rw [h.fresh]; exact h.cur.trans o.entry⟩

theorem Mode.same {u : Bool} (h : Same id c c') (o : Mode c u id out) : Mode c' u id out := by
  rcases o with ⟨a, o⟩ | ⟨a, o | o | o⟩
  · exact .inl ⟨a, o.same h⟩
  · exact .inr ⟨a, .inl (o.same h)⟩
  · exact .inr ⟨a, .inr (.inl (o.same h))⟩
  · exact .inr ⟨a, .inr (.inr (o.same h))⟩

end

/-- One stream changes. -/
theorem Inv.update {c c' : C} {used : Nat → Bool} {log log' : Nat → List Out} {id : Nat}
    (h : Inv cf c used log) (hd : c'.dead = c.dead) (hs : ∀ j, j ≠ id → Same j c c')
    (hlog : ∀ j, j ≠ id → log' j = log j) (hu : used id = true)
    (hf : ∀ j, j ∈ c'.finished → j ∈ c.finished ∨ j = id)
    (hm : Open id c' (log' id) ∨ Closed id c' (log' id) ∨ Broken id c' (log' id))
    (hm2 : id ∈ c'.finished → Closed id c' (log' id) ∨ Broken id c' (log' id)) : Inv cf c' used log' where
  conf := by
    have := hs (id + 1) (by omega)
    rw [this.isServer, this.maxField]; exact h.conf
  dead := by rw [hd]; exact h.dead
  mode := fun j => by
    by_cases e : j = id
    · subst e; exact .inr ⟨hu, hm⟩
    · rw [hlog j e]; exact (h.mode j).same (hs j e)
  fins := fun j hj => by
    by_cases e : j = id
    · subst e; exact ⟨hu, hm2 hj⟩
    · rw [hlog j e]
      have := h.fins j ((hf j hj).resolve_right e)
      exact ⟨this.1, this.2.imp (·.same (hs j e)) (·.same (hs j e))⟩

/-- No stream changes. -/
theorem Inv.keep {c c' : C} {used : Nat → Bool} {log : Nat → List Out} (h : Inv cf c used log)
    (hd : c'.dead = c.dead) (hs : ∀ j, Same j c c') (hf : ∀ j, j ∈ c'.finished → j ∈ c.finished) :
    Inv cf c' used log where
  conf := by rw [(hs 0).isServer, (hs 0).maxField]; exact h.conf
  dead := by rw [hd]; exact h.dead
  mode := fun j => (h.mode j).same (hs j)
  fins := fun j hj => by
    have := h.fins j (hf j hj)
    exact ⟨this.1, this.2.imp (·.same (hs j)) (·.same (hs j))⟩

theorem Inv.used {c : C} {used : Nat → Bool} {log : Nat → List Out} (h : Inv cf c used log) {id : Nat}
    (hu : used id = true) : Open id c (log id) ∨ Closed id c (log id) ∨ Broken id c (log id) := by
  rcases h.mode id with ⟨a, _⟩ | ⟨_, o⟩
  · rw [hu] at a; cases a
  · exact o

/-- The state of a stream that is not open is not that of a body. -/
theorem fresh_state (c : C) (id : Nat) : (c.fresh id).state ≠ .data := by
  unfold C.fresh Strm.new; dsimp only; split <;> decide

theorem Inv.data {c : C} {used : Nat → Bool} {log : Nat → List Out} (h : Inv cf c used log) {id : Nat}
    (hs : (c.cur id).state = .data) : used id = true ∧ Open id c (log id) ∧ id ∉ c.finished := by
  have key : ¬ (Closed id c (log id) ∨ Broken id c (log id)) := by
    rintro (o | o)
    · rcases o.entry with e | e
      · rw [e.state] at hs; exact fresh_state c id hs
      · rw [hs] at e; cases e
    · exact o.state hs
  rcases h.mode id with ⟨a, o⟩ | ⟨a, o | o⟩
  · exact absurd (o.entry.state ▸ hs) (fresh_state c id)
  · exact ⟨a, o, fun hf => key (h.fins id hf).2⟩
  · exact absurd o key

/-- Failing. -/
theorem failed_inv {c c' : C} {used : Nat → Bool} {log : Nat → List Out} (h : Inv cf c used log) {code : Nat}
    {e e' : Err} (hx : c.closeWith code e = (e', c')) :
    Inv cf c' used log ∧ c'.localErr.isSome = true ∧ (e' = e ∨ e' = .done ∧ c.localErr.isSome = true) := by
  obtain ⟨h1, h2, h3, h4, h5⟩ := fail_spec (id := 0) h.dead hx
  refine ⟨h.keep h1.dead (fun j => ⟨h1.isServer, h1.maxField, h1.maxPrio, fun _ => h2, by rw [h4], ?_⟩)
    (fun j hj => by rw [h1.finished] at hj; exact hj), h2, ?_⟩
  · rw [cur_congr h3 h1.maxField h1.maxPrio]; exact .refl _
  · rcases h5 with ⟨a, _⟩ | a
    · exact .inl a
    · exact .inr a

/-! ### Streams read to the end -/

theorem new_bidi {id : Nat} (hb : isBidi id = true) (l : Bool) (m p : Nat) :
    (Strm.new id l m p).ty = some .request ∧ (Strm.new id l m p).state = .frameType := by
  unfold Strm.new; simp [hb]

theorem new_uni {id : Nat} (hb : isBidi id = false) (l : Bool) (m p : Nat) :
    (Strm.new id l m p).ty = none ∧ (Strm.new id l m p).state = .streamType := by
  unfold Strm.new; simp [hb]

theorem fresh_critical (c : C) (id : Nat) : (c.fresh id).critical = false := by
  unfold C.fresh Strm.critical
  cases hb : isBidi id with
  | true => rw [(new_bidi hb _ _ _).1]; rfl
  | false => rw [(new_uni hb _ _ _).1]; rfl

theorem varBuf_fresh {c : C} {id : Nat} {s : Strm} (h : SameCore s (c.fresh id)) : VarBuf s :=
  varBuf_new h.buf h.off h.len

/-- Nothing is read from a stream that is at its end. -/
theorem rd_nil {r r1 : Rx} {bs : Bytes} (hwf : r.WF) (hf : r.finished = true) (h : Rd r r1 bs) : bs = [] := by
  have h1 := finished_off hwf hf
  have h2 := h.off
  have h3 := h.wf.off
  rw [h.all] at h3
  exact List.eq_nil_of_length_eq_zero (by omega)

theorem rd_finished {r r1 : Rx} {bs : Bytes} (hwf : r.WF) (hf : r.finished = true) (h : Rd r r1 bs) :
    r1.finished = true := by
  have hb := rd_nil hwf hf h
  have h1 := h.off
  rw [hb] at h1
  unfold Rx.finished at *
  rw [h.fin, h.all, h1]
  simp only [Bool.or_eq_true, Bool.and_eq_true, beq_iff_eq, List.length_nil] at *
  rcases hf with hf | hf
  · exact .inl (h.gone hf)
  · exact .inr hf

/-- A stream at its end that is processed again gives nothing. -/
theorem processStream_closed {spare : Nat → Nat → Nat} {polling : Bool} {id : Nat} {out : List Out} {c c' : C} {res : Res}
    (hl : Closed id c out)
    (h : c.processStream spare polling id = (res, c')) :
    Eff id c c' ∧ Closed id c' out ∧ c'.localErr = c.localErr ∧
      (res = .error .done ∨ res = .error .transport ∨ ∃ x, res = .error (.streamReset x) ∧ (c'.rx id).err = some x) := by
  unfold C.processStream at h
  obtain ⟨s, h1, h2⟩ := ensure_some c id
  obtain ⟨e1, e2, e3⟩ := ensure_eff c id
  have hfu : ∃ k, (c.ensure id).fuel id = k + 1 := ⟨_, rfl⟩
  obtain ⟨k, hk⟩ := hfu
  rw [hk] at h
  unfold C.loop C.iter at h
  rw [h1] at h
  dsimp only at h
  have hfr : (c.ensure id).fresh id = c.fresh id := by unfold C.fresh; rw [e1.maxField, e1.maxPrio]
  have hlim : (c.ensure id).limit = c.limit := by unfold C.limit; rw [e1.maxField]
  have hpe : (c.ensure id).peerStream id = c.peerStream id := by unfold C.peerStream; rw [e1.isServer]
  have hcl : Closed id (c.ensure id) out := by
    refine ⟨by rw [e2]; exact hl.wf, by rw [e2]; exact hl.fin, ?_, by rw [e2, hlim, hpe]; exact hl.hist⟩
    rw [cur_some h1, hfr, h2]; exact hl.entry
  rcases hl.entry with he | he
  · have hv := varBuf_fresh (c := c) (id := id) (s := s) (by rw [h2]; exact he)
    have hcr : s.critical = false := by
      have := fresh_critical c id
      unfold Strm.critical at *
      rw [h2, he.ty]; exact this
    -- both kinds of streams read an integer first
    have key : ∀ {K : Nat → Strm → C → Step × C} {st : Step} {c1 : C},
        (c.ensure id).filled id (s.tryFill spare ((c.ensure id).rx id)) (fun s c => c.varint id s K) = (st, c1) →
        ∃ res, st = .ret res ∧ Eff id c c1 ∧ Closed id c1 out ∧ c1.localErr = c.localErr ∧
        (res = .error .done ∨ res = .error .transport ∨ ∃ x, res = .error (.streamReset x) ∧ (c1.rx id).err = some x) := by
      intro K st c1 hx
      obtain ⟨s1, r1, bs, g1, g2, g3, g4⟩ := var_step hcl.wf hv hx
      have hb := rd_nil hcl.wf hcl.fin g1
      subst hb
      rcases g4 with ⟨g4, rfl, g5⟩ | ⟨g4, _⟩ | ⟨v, _, g4, _⟩
      · have heff : Eff id c ((c.ensure id).put id s1 r1) := e1.trans (eff_put g1)
        have hcl2 : Closed id ((c.ensure id).put id s1 r1) out := by
          refine ⟨by rw [put_rx]; exact g1.wf, by rw [put_rx]; exact rd_finished hcl.wf hcl.fin g1, .inl ?_, ?_⟩
          · rw [cur_put]
            have hfe : ((c.ensure id).put id s1 r1).fresh id = c.fresh id := hfr
            rw [hfe]
            have hsc : SameCore s1 s := by
              refine ⟨g2.ty, g2.state, by rw [g3, List.append_nil], ?_, ?_, g2.frameType, g2.isLocal, g2.remoteInit, g2.dataReceived,
                g2.trailersReceived, g2.maxHeaders, g2.maxPrio⟩
              · have a1 : s.buf = [] := by rw [h2]; exact he.buf
                rw [g4.nil (by rw [g3, a1]; rfl), hv.nil a1]
              · rw [g4.off, hv.off, g3, List.append_nil]
            rw [h2] at hsc
            exact hsc.trans he
          · rw [put_rx]
            have hl' : ((c.ensure id).put id s1 r1).limit = c.limit := hlim
            have hp' : ((c.ensure id).put id s1 r1).peerStream id = c.peerStream id := hpe
            have h3 := hl.hist
            rw [hl', hp', g1.all, g1.err, e2]
            exact h3
        rcases g5 with ⟨_, g5⟩ | g5 | ⟨g5, _⟩ | ⟨x, g5, g6⟩
        · exact absurd rfl g5
        · exact ⟨_, g5, heff, hcl2, e3, .inl rfl⟩
        · exact ⟨_, g5, heff, hcl2, e3, .inr (.inl rfl)⟩
        · exact ⟨_, g5, heff, hcl2, e3, .inr (.inr ⟨x, rfl, by rw [put_rx]; exact g6⟩)⟩
      · rw [hcr] at g4; cases g4
      · exact absurd rfl g4
    have hstate : s.state = .frameType ∨ s.state = .streamType := by
      rw [h2, he.state]
      cases hb : isBidi id with
      | true => exact .inl (new_bidi hb _ _ _).2
      | false => exact .inr (new_uni hb _ _ _).2
    rcases hstate with hst | hst
    · simp only [hst] at h
      split at h
      · rename_i r c1 hx
        obtain ⟨res', q1, q2⟩ := key hx
        cases q1
        cases h
        exact q2
      · rename_i c1 hx
        obtain ⟨res', q1, q2⟩ := key hx
        cases q1
    · simp only [hst] at h
      split at h
      · rename_i r c1 hx
        obtain ⟨res', q1, q2⟩ := key hx
        cases q1
        cases h
        exact q2
      · rename_i c1 hx
        obtain ⟨res', q1, q2⟩ := key hx
        cases q1
  · rw [← h2] at he
    simp only [he] at h
    cases h
    exact ⟨e1, hcl, e3, .inl rfl⟩

/-! ### Processing -/

theorem logRes_other {log : Nat → List Out} {res : Res} {id : Nat}
    (h : ∀ i ev, res = .ok (i, ev) → EvOk id i ev) {j : Nat} (hj : j ≠ id) : logRes log res j = log j := by
  unfold logRes
  split
  · rename_i i hs m
    rcases h i _ rfl with ⟨h, _⟩ | ⟨_, _, _, h⟩ | h | h
    · cases h
    · subst h; exact upd_other _ _ hj
    · cases h
    · cases h
  · rfl

theorem logRes_self {log : Nat → List Out} {res : Res} {id : Nat}
    (h : ∀ i ev, res = .ok (i, ev) → EvOk id i ev) : logRes log res id = log id ++ resOut res := by
  unfold logRes resOut
  cases res with
  | error e => simp
  | ok x =>
    obtain ⟨i, ev⟩ := x
    cases ev with
    | headers hs m =>
      rcases h i _ rfl with ⟨h, _⟩ | ⟨_, _, _, h⟩ | h | h
      · cases h
      · subst h; simp [addLog, upd]
      · cases h
      · cases h
    | _ => simp

/-- What processing a stream leaves. -/
structure StreamOk (cf : Bool × Option Nat) (id : Nat) (polling : Bool) (c : C) (used : Nat → Bool) (log : Nat → List Out)
    (res : Res) (c' : C) : Prop where
  inv : Inv cf c' used (logRes log res)
  panic : res ≠ .error .panic
  ev : ∀ i ev, res = .ok (i, ev) → EvOk id i ev
  body : polling = false → ∃ e, res = .error e
  lerr : c'.localErr = c.localErr ∨ ∃ e, res = .error e ∧ (c.localErr = none → e.hard = true)
  reset : ∀ x, res = .error (.streamReset x) → c.localErr = none → (c'.rx id).err = some x
  ids : c'.isServer = c.isServer
  all : (c'.rx id).all = (c.rx id).all
  off : (c.rx id).off ≤ (c'.rx id).off

theorem Eff.limit {id : Nat} {c c' : C} (h : Eff id c c') : c'.limit = c.limit := by
  unfold C.limit; rw [h.maxField]
theorem Eff.peer {id : Nat} {c c' : C} (h : Eff id c c') (i : Nat) : c'.peerStream i = c.peerStream i := by
  unfold C.peerStream; rw [h.isServer]

theorem processStream_inv {spare : Nat → Nat → Nat} {polling : Bool} {id : Nat} {c c' : C} {res : Res}
    {used : Nat → Bool} {log : Nat → List Out} (hi : Inv cf c used log) (hu : used id = true)
    (hpl : polling = true → c.localErr = none) (hnf : polling = false → id ∉ c.finished)
    (hnb : Open id c (log id) ∨ Closed id c (log id))
    (h : c.processStream spare polling id = (res, c')) : StreamOk cf id polling c used log res c' := by
  have hclosed : Closed id c (log id) → StreamOk cf id polling c used log res c' := by
    intro hc
    obtain ⟨h1, h2, h3, h4⟩ := processStream_closed hc h
    have hlr : logRes log res = log := by rcases h4 with rfl | rfl | ⟨x, rfl, _⟩ <;> rfl
    have hno : ∀ i ev, res = .ok (i, ev) → False := by
      intro i ev e; rcases h4 with rfl | rfl | ⟨x, rfl, _⟩ <;> cases e
    refine ⟨?_, ?_, fun i ev e => (hno i ev e).elim, fun _ => ?_, .inl h3, ?_, h1.isServer, h1.all, h1.off⟩
    · rw [hlr]
      exact hi.update h1.dead (fun j hj => h1.same hj) (fun _ _ => rfl) hu
        (fun j hj => by rw [h1.finished] at hj; exact .inl hj) (.inr (.inl h2)) (fun _ => .inl h2)
    · rcases h4 with rfl | rfl | ⟨x, rfl, _⟩ <;> simp
    · rcases h4 with rfl | rfl | ⟨x, rfl, _⟩ <;> exact ⟨_, rfl⟩
    · intro x hx
      rcases h4 with rfl | rfl | ⟨y, rfl, hy⟩
      · cases hx
      · cases hx
      · cases hx; exact fun _ => hy
  by_cases hf : id ∈ c.finished
  · rcases (hi.fins id hf).2 with hc | hb
    · exact hclosed hc
    · rcases hnb with ho | hc
      · cases hpo : polling with
        | true =>
          have := hpl hpo
          have := hb.lerr
          simp_all
        | false =>
          exact absurd hf (hnf hpo)
      · exact hclosed hc
  · rcases hnb with ho | hc
    · have hr := processStream_ok hi.dead hpl ho h
      have hnf : id ∉ c'.finished := by rw [hr.eff.finished]; exact hf
      rcases hr.out with ⟨o1, o2, o3, o4, o5⟩ | ⟨o1, e, o2, o3⟩
      · refine ⟨?_, hr.panic, o5, o3, .inl o2, fun x hx _ => o4 x hx, hr.eff.isServer, hr.eff.all, hr.eff.off⟩
        refine hi.update hr.eff.dead (fun j hj => hr.eff.same hj) (fun j hj => logRes_other o5 hj) hu
          (fun j hj => by rw [hr.eff.finished] at hj; exact .inl hj) (.inl ?_) (fun e => absurd e hnf)
        unfold Open
        rw [hr.eff.limit, hr.eff.peer, logRes_self o5]
        exact o1
      · subst o2
        refine ⟨?_, hr.panic, (fun i ev e => by cases e), fun _ => ⟨e, rfl⟩, .inr ⟨e, rfl, o3⟩,
          fun x hx hn => (by cases hx; cases o3 hn), hr.eff.isServer, hr.eff.all, hr.eff.off⟩
        refine hi.update hr.eff.dead (fun j hj => hr.eff.same hj) (fun _ _ => rfl) hu
          (fun j hj => by rw [hr.eff.finished] at hj; exact .inl hj) (.inr (.inr ?_)) (fun e => absurd e hnf)
        unfold Broken
        rw [hr.eff.limit, hr.eff.peer]
        exact o1
    · exact hclosed hc

/-! ### The end of a stream -/

/-- An open stream at its end. -/
theorem Open.close {id : Nat} {c c' : C} {out : List Out} (h : Open id c out) (hf : (c.rx id).finished = true)
    (hrx : c'.rx id = c.rx id) (hlim : c'.limit = c.limit) (hpe : c'.peerStream id = c.peerStream id)
    (he : SameCore (c'.cur id) (c'.fresh id) ∨ (c'.cur id).state = .finished) : Closed id c' out := by
  refine ⟨by rw [hrx]; exact h.wf, by rw [hrx]; exact hf, he, ?_⟩
  obtain ⟨k, k1, k2, k3⟩ := h.hist
  rw [hrx, hlim, hpe]
  exact ⟨k, k1, k2.good, fun e => (k3 e).trans (finished_off h.wf hf)⟩

/-- The table entry of a stream at its end is replaced. -/
theorem Inv.finish {c c' : C} {used : Nat → Bool} {log : Nat → List Out} {id : Nat} (h : Inv cf c used log)
    (hu : used id = true) (hf : (c.rx id).finished = true) (hd : c'.dead = c.dead)
    (h1 : c'.isServer = c.isServer) (h2 : c'.maxField = c.maxField) (h3 : c'.maxPrio = c.maxPrio)
    (h4 : c'.localErr = c.localErr) (h5 : c'.rx = c.rx) (h6 : ∀ j, j ≠ id → c'.streams j = c.streams j)
    (h7 : ∀ j, j ∈ c'.finished → j ∈ c.finished ∨ j = id)
    (he : SameCore (c'.cur id) (c'.fresh id) ∨ (c'.cur id).state = .finished) : Inv cf c' used log := by
  have hlim : c'.limit = c.limit := by unfold C.limit; rw [h2]
  have hpe : c'.peerStream id = c.peerStream id := by unfold C.peerStream; rw [h1]
  have key : Closed id c' (log id) ∨ Broken id c' (log id) := by
    rcases h.used hu with o | o | o
    · exact .inl (o.close hf (by rw [h5]) hlim hpe he)
    · refine .inl ⟨by rw [h5]; exact o.wf, by rw [h5]; exact hf, he, ?_⟩
      rw [h5, hlim, hpe]; exact o.hist
    · refine .inr ⟨by rw [h4]; exact o.lerr, ?_, ?_⟩
      · rcases he with e | e
        · rw [e.state]; exact fresh_state _ _
        · rw [e]; decide
      · rw [h5, hlim, hpe]; exact o.hist
  refine h.update hd (fun j hj => ⟨h1, h2, h3, fun e => by rw [h4]; exact e, by rw [h5], ?_⟩) (fun _ _ => rfl) hu h7
    (.inr key) (fun _ => key)
  unfold C.cur C.fresh
  rw [h6 j hj, h2, h3]
  exact .refl _

theorem cur_remove (c : C) (id : Nat) : (c.remove id).cur id = c.fresh id := by
  simp [C.cur, C.remove, upd, C.fresh]

theorem finishIf_inv {c : C} {used : Nat → Bool} {log : Nat → List Out} {id : Nat} (h : Inv cf c used log)
    (hu : used id = true) : Inv cf (c.finishIf id) used log ∧ (c.finishIf id).localErr = c.localErr ∧
      (c.finishIf id).rx = c.rx ∧ (c.finishIf id).isServer = c.isServer := by
  unfold C.finishIf
  split
  · rename_i hf
    unfold C.processFinished
    split
    · exact ⟨h, rfl, rfl, rfl⟩
    · rename_i s hs
      split
      · exact ⟨h, rfl, rfl, rfl⟩
      · split
        · refine ⟨h.finish hu hf rfl rfl rfl rfl rfl rfl (fun j hj => upd_other _ _ hj) (fun j hj => ?_) (.inr ?_), rfl, rfl, rfl⟩
          · rcases List.mem_append.mp hj with hj | hj
            · exact .inl hj
            · exact .inr (List.mem_singleton.mp hj)
          · have : ({ c.setStrm id s.finish with finished := c.finished ++ [id] } : C).cur id = s.finish := cur_setStrm c id _
            rw [this]
            simp [Strm.finish, Strm.transition]
        · refine ⟨h.finish hu hf rfl rfl rfl rfl rfl rfl (fun j hj => upd_other _ _ hj) (fun j hj => ?_) (.inr ?_), rfl, rfl, rfl⟩
          · rcases List.mem_append.mp hj with hj | hj
            · exact .inl hj
            · exact .inr (List.mem_singleton.mp hj)
          · have : ({ c.setStrm id s.finish with finished := c.finished ++ [id] } : C).cur id = s.finish := cur_setStrm c id _
            rw [this]
            simp [Strm.finish, Strm.transition]
        · exact ⟨h.finish hu hf rfl rfl rfl rfl rfl rfl (fun j hj => upd_other _ _ hj) (fun j hj => .inl hj)
            (.inl (by rw [cur_remove]; exact .refl _)), rfl, rfl, rfl⟩
        · exact ⟨h.finish hu hf rfl rfl rfl rfl rfl rfl (fun j hj => upd_other _ _ hj) (fun j hj => .inl hj)
            (.inl (by rw [cur_remove]; exact .refl _)), rfl, rfl, rfl⟩
        · exact ⟨h, rfl, rfl, rfl⟩
        · exact ⟨h, rfl, rfl, rfl⟩
        · exact ⟨h, rfl, rfl, rfl⟩
  · exact ⟨h, rfl, rfl, rfl⟩

theorem removeLocalFinished_inv {c : C} {used : Nat → Bool} {log : Nat → List Out} {id : Nat} (h : Inv cf c used log)
    (hu : used id = true) (hf : (c.rx id).finished = true) :
    Inv cf (c.removeLocalFinished id) used log ∧ (c.removeLocalFinished id).localErr = c.localErr ∧
      (c.removeLocalFinished id).rx = c.rx ∧ (c.removeLocalFinished id).finished = c.finished ∧
      (c.removeLocalFinished id).isServer = c.isServer := by
  unfold C.removeLocalFinished
  split
  · split
    · exact ⟨h.finish hu hf rfl rfl rfl rfl rfl rfl (fun j hj => upd_other _ _ hj) (fun j hj => .inl hj)
        (.inl (by rw [cur_remove]; exact .refl _)), rfl, rfl, rfl, rfl⟩
    · exact ⟨h, rfl, rfl, rfl, rfl⟩
  · exact ⟨h, rfl, rfl, rfl, rfl⟩

/-- The same for a stream because of which the connection was closed. -/
theorem removeLocalFinished_broken {c : C} {used : Nat → Bool} {log : Nat → List Out} {id : Nat} (h : Inv cf c used log)
    (hu : used id = true) (hb : Broken id c (log id)) :
    Inv cf (c.removeLocalFinished id) used log ∧ (c.removeLocalFinished id).localErr = c.localErr := by
  unfold C.removeLocalFinished
  split
  · split
    · refine ⟨h.update rfl (fun j hj => ⟨rfl, rfl, rfl, fun e => e, rfl, ?_⟩) (fun _ _ => rfl) hu (fun j hj => .inl hj)
        (.inr (.inr ?_)) (fun _ => .inr ?_), rfl⟩
      · have : (c.remove id).streams j = c.streams j := upd_other _ _ hj
        unfold C.cur
        rw [this]
        exact .refl _
      · exact ⟨hb.lerr, by rw [cur_remove]; exact fresh_state _ _, hb.hist⟩
      · exact ⟨hb.lerr, by rw [cur_remove]; exact fresh_state _ _, hb.hist⟩
    · exact ⟨h, rfl⟩
  · exact ⟨h, rfl⟩

/-- What the list of finished streams gives. -/
structure PopOk (cf : Bool × Option Nat) (c : C) (used : Nat → Bool) (log : Nat → List Out) (ev : Option (Nat × Event)) (c' : C) : Prop where
  inv : Inv cf c' used log
  lerr : c'.localErr = c.localErr
  ev : ∀ i e, ev = some (i, e) → used i = true ∧ (e = .finished ∨ ∃ x, e = .reset x ∧ (c'.rx i).err = some x) ∧
    (Closed i c' (log i) ∨ Broken i c' (log i))
  ids : c'.isServer = c.isServer

theorem popFinished_inv {c c' : C} {used : Nat → Bool} {log : Nat → List Out} {ev : Option (Nat × Event)}
    (h : Inv cf c used log) (hn : c.localErr = none) (hp : c.popFinished = (ev, c')) : PopOk cf c used log ev c' := by
  unfold C.popFinished at hp
  split at hp
  · cases hp
    exact ⟨h, rfl, (fun i e c => by cases c), rfl⟩
  · rename_i id l hfin
    have hid : id ∈ c.finished := by rw [hfin]; simp
    obtain ⟨hu, hcb⟩ := h.fins id hid
    have hcl : Closed id c (log id) := hcb.resolve_right (fun b => by have := b.lerr; rw [hn] at this; cases this)
    have h0 : Inv cf { c with finished := l } used log :=
      h.keep rfl (fun j => ⟨rfl, rfl, rfl, fun e => e, rfl, .refl _⟩) (fun j hj => by rw [hfin]; exact List.mem_cons_of_mem _ hj)
    obtain ⟨h1, h2, h3, h4, h5⟩ := removeLocalFinished_inv (c := { c with finished := l }) h0 hu hcl.fin
    generalize hc1 : ({ c with finished := l } : C).removeLocalFinished id = c1 at hp h1 h2 h3 h4 h5
    have hcl1 : Closed id c1 (log id) := by
      have hrx : c1.rx id = c.rx id := by rw [h3]
      rcases h1.used hu with o | o | o
      · -- only the entry may have changed
        have : SameCore (c1.cur id) (c1.fresh id) ∨ (c1.cur id).state = .finished := by
          rw [← hc1]
          unfold C.removeLocalFinished
          split
          · split
            · exact .inl (by rw [cur_remove]; exact .refl _)
            · exact hcl.entry
          · exact hcl.entry
        exact o.close (by rw [hrx]; exact hcl.fin) rfl rfl rfl this
      · exact o
      · have := o.lerr; rw [h2, hn] at this; cases this
    unfold C.finishedEvent at hp
    have hdone : ∀ r1, Rd (c1.rx id) r1 [] → Closed id (c1.setRx id r1) (log id) ∧ Inv cf (c1.setRx id r1) used log := by
      intro r1 hr
      have hk : Closed id (c1.setRx id r1) (log id) := by
        have hrx : (c1.setRx id r1).rx id = r1 := by simp [C.setRx, upd]
        refine ⟨by rw [hrx]; exact hr.wf, by rw [hrx]; exact rd_finished hcl1.wf hcl1.fin hr, hcl1.entry, ?_⟩
        rw [hrx, hr.all, hr.err]; exact hcl1.hist
      have he := eff_setRx (c := c1) hr
      exact ⟨hk, h1.update rfl (fun j hj => he.same hj) (fun _ _ => rfl) hu (fun j hj => .inl hj) (.inr (.inl hk)) (fun _ => .inl hk)⟩
    split at hp
    · rename_i ev' c2 hx
      cases hp
      split at hx
      · split at hx
        · rename_i e r1 hr
          cases hx
          obtain ⟨g1, g2⟩ := recv_err hcl1.wf hr
          obtain ⟨k1, k2⟩ := hdone _ g1
          refine ⟨k2, h2, fun i e' c => ?_, h5⟩
          cases c
          refine ⟨hu, .inr ⟨e, rfl, ?_⟩, .inl k1⟩
          have hrx : (c1.setRx id r1).rx id = r1 := by simp [C.setRx, upd]
          rw [hrx, g1.err]
          rcases g2 with g2 | ⟨g2, _⟩ | ⟨x, g2, g3⟩
          · cases g2
          · cases g2
          · cases g2; exact g3
        · rename_i q r1 hne hr
          cases hx
          cases hres : q with
          | error e =>
            rw [hres] at hr
            obtain ⟨g1, g2⟩ := recv_err hcl1.wf hr
            obtain ⟨k1, k2⟩ := hdone _ g1
            exact ⟨k2, h2, (fun i e' c => by cases c; exact ⟨hu, .inl rfl, .inl k1⟩), h5⟩
          | ok x =>
            obtain ⟨bs, fin⟩ := x
            rw [hres] at hr
            obtain ⟨g1, _⟩ := recv_ok hcl1.wf hr
            have hb := rd_nil hcl1.wf hcl1.fin g1
            subst hb
            obtain ⟨k1, k2⟩ := hdone _ g1
            exact ⟨k2, h2, (fun i e' c => by cases c; exact ⟨hu, .inl rfl, .inl k1⟩), h5⟩
      · cases hx
        exact ⟨h1, h2, (fun i e' c => by cases c; exact ⟨hu, .inl rfl, .inl hcl1⟩), h5⟩

/-! ### Polling -/

/-- What `poll` leaves. -/
structure PollOk (cf : Bool × Option Nat) (used : Nat → Bool) (log : Nat → List Out) (res : Res) (c' : C) : Prop where
  inv : Inv cf c' used (logRes log res)
  panic : res ≠ .error .panic
  fin : ∀ i, res = .ok (i, .finished) → used i = true ∧ Closed i c' (log i)
  reset : ∀ i x, res = .ok (i, .reset x) → used i = true ∧ (c'.rx i).err = some x

def Cont (cf : Bool × Option Nat) (used : Nat → Bool) (log : Nat → List Out) (k : C → Res × C) : Prop :=
  ∀ c res c', Inv cf c used log → c.localErr = none → k c = (res, c') → PollOk cf used log res c'

variable {used : Nat → Bool} {log : Nat → List Out}

theorem pollOk_err {c' : C} {e : Err} (h : Inv cf c' used log) (hp : e ≠ .panic) :
    PollOk cf used log (.error e) c' :=
  ⟨h, by simpa using hp, (fun i c => by cases c), (fun i x c => by cases c)⟩

theorem StreamOk.poll {id : Nat} {polling : Bool} {c c' : C} {res : Res} (h : StreamOk cf id polling c used log res c') :
    PollOk cf used log res c' := by
  refine ⟨h.inv, h.panic, fun i c => ?_, fun i x c => ?_⟩
  · rcases h.ev i _ c with ⟨e, _⟩ | ⟨_, _, e, _⟩ | e | e <;> cases e
  · rcases h.ev i _ c with ⟨e, _⟩ | ⟨_, _, e, _⟩ | e | e <;> cases e

theorem Inv.notBroken {c : C} (h : Inv cf c used log) (hn : c.localErr = none) {id : Nat} (hu : used id = true) :
    Open id c (log id) ∨ Closed id c (log id) := by
  rcases h.used hu with o | o | o
  · exact .inl o
  · exact .inr o
  · have := o.lerr; rw [hn] at this; cases this

theorem processControl_inv {spare : Nat → Nat → Nat} {c c' : C} {id : Nat} {res : Res} (h : Inv cf c used log)
    (hn : c.localErr = none) (hp : c.processControl spare id = (res, c')) :
    (res = .error .done ∧ Inv cf c' used log ∧ c'.localErr = none) ∨
      (res ≠ .error .done ∧ PollOk cf used log res c') := by
  have hfail : ∀ c1, Inv cf c1 used log → c1.localErr = none → resFailed c1.failCritical = (res, c') →
      res ≠ .error .done ∧ PollOk cf used log res c' := by
    intro c1 h1 hn1 hx
    cases hy : c1.closeWith (Err.toWire .closedCriticalStream) .closedCriticalStream with
    | mk e c2 =>
    obtain ⟨q1, q2, q3⟩ := failed_inv h1 hy
    have hy' : c1.failCritical = (e, c2) := hy
    rw [hy'] at hx
    unfold resFailed at hx
    cases hx
    have he : e = .closedCriticalStream := by
      rcases q3 with q3 | ⟨_, q3⟩
      · exact q3
      · rw [hn1] at q3; cases q3
    exact ⟨by rw [he]; simp, pollOk_err q1 (by rw [he]; simp)⟩
  unfold C.processControl at hp
  split at hp
  · exact .inr (hfail c h hn hp)
  rename_i hf
  have hu : used id = true := by
    rcases h.mode id with ⟨_, o⟩ | ⟨a, _⟩
    · rw [o.rx] at hf; exact absurd rfl hf
    · exact a
  split at hp
  · cases hp; exact .inl ⟨rfl, h, hn⟩
  cases hs : c.processStream spare true id with
  | mk r1 c1 =>
  have hok := processStream_inv h hu (fun _ => hn) (fun c => by cases c) (h.notBroken hn hu) hs
  rw [hs] at hp
  by_cases hd : r1 = .error .done
  · subst hd
    have hinv : Inv cf c1 used log := hok.inv
    have hn1 : c1.localErr = none := by
      rcases hok.lerr with e | ⟨e, he, hne⟩
      · rw [e]; exact hn
      · cases he; exact absurd rfl (Err.hard_done (hne hn))
    dsimp only at hp
    split at hp
    · exact .inr (hfail c1 hinv hn1 hp)
    · cases hp; exact .inl ⟨rfl, hinv, hn1⟩
  · have : (r1, c1) = (res, c') := by
      rw [← hp]
      split
      · rename_i hx; cases hx; exact absurd rfl hd
      · rfl
    cases this
    exact .inr ⟨hd, hok.poll⟩

theorem control_inv {spare : Nat → Nat → Nat} {sel : C → Option Nat} {k : C → Res × C}
    (hk : Cont cf used log k) : Cont cf used log (C.control spare sel k) := by
  intro c res c' h hn hp
  unfold C.control at hp
  split at hp
  · exact hk c res c' h hn hp
  · rename_i id hid
    cases hx : c.processControl spare id with
    | mk r1 c1 =>
    rw [hx] at hp
    rcases processControl_inv h hn hx with ⟨rfl, h1, h2⟩ | ⟨h1, h2⟩
    · exact hk c1 res c' h1 h2 hp
    · have : (r1, c1) = (res, c') := by
        rw [← hp]
        split
        · rename_i hx; cases hx; exact absurd rfl h1
        · rfl
      cases this
      exact h2

theorem popOr_inv {k : C → Res × C} (hk : Cont cf used log k) : Cont cf used log (C.popOr k) := by
  intro c res c' h hn hp
  unfold C.popOr at hp
  cases hx : c.popFinished with
  | mk ev c1 =>
  rw [hx] at hp
  have hok := popFinished_inv h hn hx
  cases ev with
  | none => exact hk c1 res c' hok.inv (by rw [hok.lerr]; exact hn) hp
  | some e =>
    obtain ⟨i, e⟩ := e
    cases hp
    obtain ⟨h1, h2, h3⟩ := hok.ev i e rfl
    have hl : logRes log (.ok (i, e)) = log := by
      rcases h2 with rfl | ⟨x, rfl, _⟩ <;> rfl
    refine ⟨by rw [hl]; exact hok.inv, by simp, fun j c => ?_, fun j x c => ?_⟩
    · cases c
      refine ⟨h1, h3.resolve_right (fun b => ?_)⟩
      have := b.lerr; rw [hok.lerr, hn] at this; cases this
    · cases c
      refine ⟨h1, ?_⟩
      rcases h2 with h2 | ⟨y, h2, h4⟩
      · cases h2
      · cases h2; exact h4

theorem readLoop_inv {spare : Nat → Nat → Nat} {k : C → Res × C} (hk : Cont cf used log k) :
    ∀ l : List Nat, (∀ i ∈ l, used i = true) → Cont cf used log (C.readLoop spare k l) := by
  intro l
  induction l with
  | nil => intro _; exact hk
  | cons id l ih =>
    intro hl c res c' h hn hp
    have hu := hl id (List.mem_cons_self ..)
    unfold C.readLoop at hp
    cases hs : c.processStream spare true id with
    | mk r1 c1 =>
    have hok := processStream_inv h hu (fun _ => hn) (fun c => by cases c) (h.notBroken hn hu) hs
    rw [hs] at hp
    cases r1 with
    | ok ev =>
      obtain ⟨i, ev⟩ := ev
      cases hp
      obtain ⟨q1, q2, q3, q4⟩ := finishIf_inv hok.inv hu
      have hpo := hok.poll
      refine ⟨q1, by simp, fun j c => ?_, fun j x c => ?_⟩
      · rcases hok.ev i ev rfl with ⟨e, _⟩ | ⟨_, _, e, _⟩ | e | e <;> (rw [e] at c; cases c)
      · rcases hok.ev i ev rfl with ⟨e, _⟩ | ⟨_, _, e, _⟩ | e | e <;> (rw [e] at c; cases c)
    | error e =>
      have hinv : Inv cf c1 used log := hok.inv
      have hgen : (∀ x, e ≠ .streamReset x) → e ≠ .done → (Except.error e, c1) = (res, c') → PollOk cf used log res c' := by
        intro _ _ hx
        cases hx
        exact hok.poll
      cases e with
      | done =>
        dsimp only at hp
        have hn1 : c1.localErr = none := by
          rcases hok.lerr with e | ⟨e, he, hne⟩
          · rw [e]; exact hn
          · cases he; exact absurd rfl (Err.hard_done (hne hn))
        obtain ⟨q1, q2, q3, q4⟩ := finishIf_inv hinv hu
        exact ih (fun i hi => hl i (List.mem_cons_of_mem _ hi)) _ res c' q1 (by rw [q2]; exact hn1) hp
      | streamReset x =>
        dsimp only at hp
        cases hp
        have hmk : ∀ c2, Inv cf c2 used log → (c2.rx id).err = some x → PollOk cf used log (.ok (id, .reset x)) c2 := by
          intro c2 h2 he
          exact ⟨h2, by simp, (fun j c => by cases c), (fun j y c => by cases c; exact ⟨hu, he⟩)⟩
        have he := hok.reset x rfl hn
        · rcases hinv.used hu with o | o | o
          · have hf : (c1.rx id).finished = true := by
              obtain ⟨a1, a2⟩ := o.wf.err (by rw [he]; rfl)
              unfold Rx.finished
              simp [a1, a2]
            obtain ⟨q1, q2, q3, q4, q5⟩ := removeLocalFinished_inv hinv hu hf
            exact hmk _ q1 (by rw [q3]; exact he)
          · obtain ⟨q1, q2, q3, q4, q5⟩ := removeLocalFinished_inv hinv hu o.fin
            exact hmk _ q1 (by rw [q3]; exact he)
          · obtain ⟨q1, q2⟩ := removeLocalFinished_broken hinv hu o
            refine hmk _ q1 ?_
            have : (c1.removeLocalFinished id).rx = c1.rx := by
              unfold C.removeLocalFinished; split
              · split <;> rfl
              · rfl
            rw [this]; exact he
      | panic => exact absurd rfl hok.panic
      | _ => exact hgen (by simp) (by simp) hp

theorem poll_inv {spare : Nat → Nat → Nat} {rs : List Nat} {c c' : C} {res : Res} (h : Inv cf c used log)
    (hr : ∀ i ∈ rs, used i = true) (hp : c.poll spare rs = (res, c')) : PollOk cf used log res c' := by
  unfold C.poll at hp
  split at hp
  · cases hp
    exact pollOk_err h (by simp)
  · rename_i hn
    have hn : c.localErr = none := by simpa using hn
    have hlast : Cont cf used log (fun c => (.error .done, c)) := by
      intro c res c' h _ hx
      cases hx
      exact pollOk_err h (by simp)
    exact control_inv (control_inv (control_inv (popOr_inv (readLoop_inv (popOr_inv hlast) rs hr)))) c res c' h hn hp

/-! ### Bodies -/

/-- Reading the payload of DATA. -/
theorem tryData_ok {id n : Nat} {c : C} {s s1 : Strm} {r1 : Rx} {out : List Out} {res : Except Err (Bytes × Bool)}
    (hs : c.streams id = some s) (ho : Open id c out) (hst : s.state = .data)
    (h : s.tryData (c.rx id) n = (res, s1, r1)) :
    ∃ bs, Rd (c.rx id) r1 bs ∧ bs.length ≤ n ∧ Open id (c.put id s1 r1) (out ++ bs.map .byte) ∧
      ((∃ fin, res = .ok (bs, fin)) ∨ ∃ e, res = .error e ∧ bs = [] ∧ e ≠ .panic) := by
  unfold Open at ho
  rw [cur_some hs] at ho
  have hput : ∀ bs, Live c.limit id (c.peerStream id) s1 r1 (out ++ List.map Out.byte bs) →
      Open id (c.put id s1 r1) (out ++ bs.map .byte) := by
    intro bs hl
    unfold Open
    rw [cur_put, put_rx]
    exact hl
  unfold Strm.tryData at h
  cases hr : (c.rx id).recv (min n (s.len - s.off)) with
  | mk q r2 =>
  rw [hr] at h
  cases q with
  | error e =>
    obtain ⟨g1, g2⟩ := recv_err ho.wf hr
    obtain ⟨pre, p1, _, p3⟩ := ho.adv g1
    have hlive := p3 s out (by rw [List.append_nil]; exact p1) rfl ho.drain
    have hcases : res = .error e ∧ SameCore s1 s ∧ r1 = r2 := by
      cases e <;> (cases h; first | exact ⟨rfl, .refl _, rfl⟩ | exact ⟨rfl, .rearm _, rfl⟩)
    obtain ⟨c1, c2, c3⟩ := hcases
    subst c1; subst c3
    refine ⟨[], g1, by simp, hput [] (by simpa using hlive.congr c2), .inr ⟨e, rfl, rfl, ?_⟩⟩
    rcases g2 with rfl | ⟨rfl, _⟩ | ⟨x, rfl, _⟩ <;> simp
  | ok x =>
    obtain ⟨bs, fin⟩ := x
    dsimp only at h
    obtain ⟨g1, g2, g3, g4, g5, g6, g7⟩ := recv_ok ho.wf hr
    obtain ⟨pre, p1, _, p3⟩ := ho.adv g1
    have hlen : bs.length ≤ min n (s.len - s.off) := by rw [g2, List.length_take]; omega
    have hnd : (c.rx id).drain = true → False := fun e => by
      have := ho.drain e; rw [hst] at this; cases this
    generalize hs2 : (if r2.readable = true then ({ s with off := s.off + bs.length } : Strm)
      else ({ s with off := s.off + bs.length } : Strm).rearm) = s2 at h
    cases h
    have hc2 : SameCore s2 { s with off := s.off + bs.length } := by
      rw [← hs2]; split
      · exact .refl _
      · exact .rearm _
    refine ⟨bs, g1, by omega, hput bs ?_, .inl ⟨fin, rfl⟩⟩
    cases p1 with
    | start _ h2 => rw [hst] at h2; cases h2
    | other _ h2 => rw [hst] at h2; simp at h2
    | ft _ h2 => rw [hst] at h2; cases h2
    | fl _ h2 => rw [hst] at h2; cases h2
    | fp _ h2 => rw [hst] at h2; cases h2
    | sk _ h2 => rw [hst] at h2; cases h2
    | @da hdr fs body a l p h1 _ h3 h4 h5 h6 h7 h8 h9 h10 =>
      unfold Strm.dataDone
      split
      · rename_i hcomp
        have hfull : s.off + bs.length = s.len := by
          have a1 : s2.off = s.off + bs.length := hc2.off
          have a2 : s2.len = s.len := hc2.len
          have a3 : s2.off = s2.len := by simpa [Strm.complete] using hcomp
          omega
        rw [transition_one]
        have hrest : SameRest { s2 with buf := [], state := .frameType, off := 0, len := 1 } { s with state := .frameType } :=
          ⟨hc2.ty, rfl, hc2.frameType, hc2.isLocal, hc2.remoteInit, hc2.dataReceived, hc2.trailersReceived,
            hc2.maxHeaders, hc2.maxPrio⟩
        refine p3 _ _ ?_ hrest.isLocal (fun e => (hnd e).elim)
        have := Match.ft (limit := c.limit) (id := id) (peer := c.peerStream id)
          (s := { s2 with buf := [], state := .frameType, off := 0, len := 1 }) (hdr := hdr)
          (fs := fs ++ [(0, p ++ bs)]) (body := body ++ (a ++ l ++ (p ++ bs)))
          (by have : Head id { s with state := .frameType } hdr := h1
              exact this.rest hrest) rfl
          (.snoc h3 ⟨a, l, rfl, h5, by rw [List.length_append, ← h7, hfull]; exact h6⟩)
          (varBuf_new rfl rfl rfl)
          (by
            rw [List.map_append]
            have : Gram id (c.peerStream id) { s with state := .frameType } (fs.map (·.1) ++ [0]) := h9
            exact this.rest hrest)
          (by
            intro hb hp f hf
            rcases List.mem_append.mp hf with hf | hf
            · exact h10 hb hp f hf
            · rw [List.mem_singleton.mp hf]; show (0 : Nat) ≠ 5; decide)
        rw [framesOut_snoc] at this
        have hfo : frameOut c.limit (0, p ++ bs) = p.map .byte ++ bs.map .byte := by
          simp [frameOut]
        rw [hfo] at this
        simpa using this
      · refine Live.congr hc2 (p3 _ _ ?_ rfl (fun e => (hnd e).elim))
        have := Match.da (limit := c.limit) (id := id) (peer := c.peerStream id) (s := { s with off := s.off + bs.length })
          (a := a) (l := l) (p := p ++ bs) h1 hst h3 h4 h5 h6 (by rw [List.length_append, ← h7])
          (by show s.off + bs.length ≤ s.len; omega) h9 h10
        simpa using this

theorem addLog_nil (log : Nat → List Out) (id : Nat) : addLog log id [] = log := by
  funext j
  unfold addLog upd
  split
  · rename_i h; rw [h, List.append_nil]
  · rfl

theorem addLog_append (log : Nat → List Out) (id : Nat) (a b : List Out) :
    addLog (addLog log id a) id b = addLog log id (a ++ b) := by
  funext j
  unfold addLog upd
  split <;> simp

theorem addLog_self (log : Nat → List Out) (id : Nat) (a : List Out) : addLog log id a id = log id ++ a := by
  simp [addLog, upd]

/-- What reading a body leaves, if `got` has been read before. -/
structure BodyOk (cf : Bool × Option Nat) (used : Nat → Bool) (log : Nat → List Out) (id n : Nat) (got : Bytes)
    (res : BodyRes) (c' : C) : Prop where
  more : ∃ bs, res.2 = got ++ bs ∧ bs.length ≤ n ∧ Inv cf c' used (addLog log id (bs.map .byte))
  panic : res.1 ≠ .error .panic
  count : ∀ m, res.1 = .ok m → m = res.2.length

theorem bodyEnd_ok {id n : Nat} {c c' : C} {got bs : Bytes} {res : BodyRes} (hu : used id = true)
    (hn : bs.length ≤ n)
    (h : Inv cf c used (addLog log id (bs.map .byte))) (hp : c.bodyEnd id (got ++ bs) = (res, c')) :
    BodyOk cf used log id n got res c' := by
  unfold C.bodyEnd at hp
  cases hp
  obtain ⟨q1, _⟩ := finishIf_inv h hu
  refine ⟨⟨bs, rfl, hn, q1⟩, ?_, ?_⟩
  · dsimp only; split <;> simp
  · intro m hm
    dsimp only at hm
    split at hm
    · cases hm
    · cases hm; rfl

theorem bodyLoop_ok {spare : Nat → Nat → Nat} {id : Nat} (hu : used id = true) : ∀ {k n : Nat} {log : Nat → List Out}
    {got : Bytes} {c c' : C} {res : BodyRes}, Inv cf c used log → (c.rx id).avail.length + 2 ≤ k →
    C.bodyLoop spare id k n got c = (res, c') → BodyOk cf used log id n got res c' := by
  intro k
  induction k with
  | zero => intro n log got c c' res _ hk; omega
  | succ k ih =>
    intro n log got c c' res h hk hp
    have h0 : Inv cf c used (addLog log id (([] : Bytes).map .byte)) := by
      rw [List.map_nil, addLog_nil]; exact h
    have hend : c.bodyEnd id got = (res, c') → BodyOk cf used log id n got res c' := by
      intro hx
      exact bodyEnd_ok hu (Nat.zero_le _) h0 (by rw [List.append_nil]; exact hx)
    unfold C.bodyLoop at hp
    split at hp
    · exact hend hp
    split at hp
    · cases hp
      exact ⟨⟨[], by simp, Nat.zero_le _, h0⟩, by simp, (fun m c => by cases c)⟩
    rename_i s hs
    split at hp
    · exact hend hp
    rename_i hst
    have hst : s.state = .data := Classical.byContradiction hst
    obtain ⟨_, ho, hnf⟩ := h.data (id := id) (by rw [cur_some hs]; exact hst)
    cases ht : s.tryData (c.rx id) n with
    | mk q y =>
    obtain ⟨s1, r1⟩ := y
    rw [ht] at hp
    obtain ⟨bs, hr, hbn, ho1, hres⟩ := tryData_ok hs ho hst ht
    have heff := eff_put (s := s1) hr
    have hinv1 : Inv cf (c.put id s1 r1) used (addLog log id (bs.map .byte)) := by
      refine h.update rfl (fun j hj => heff.same hj) (fun j hj => upd_other _ _ hj) hu (fun j hj => .inl hj) (.inl ?_)
        (fun e => absurd e hnf)
      rw [addLog_self]; exact ho1
    rcases hres with ⟨fin, rfl⟩ | ⟨e, rfl, rfl, hpan⟩
    · dsimp only at hp
      split at hp
      · exact bodyEnd_ok hu hbn hinv1 hp
      rename_i hbf
      have hbne : bs ≠ [] := by
        intro c; rw [c] at hbf; simp at hbf
      cases hps : (c.put id s1 r1).processStream spare false id with
      | mk pr c2 =>
      rw [hps] at hp
      have hok := processStream_inv hinv1 hu (fun c => by cases c) (fun _ => hnf)
        (.inl (by rw [addLog_self]; exact ho1)) hps
      obtain ⟨pe, rfl⟩ := hok.body rfl
      have hinv2 : Inv cf c2 used (addLog log id (bs.map .byte)) := hok.inv
      have hstop : pe ≠ .done → ((Except.error pe, got ++ bs), c2) = (res, c') → BodyOk cf used log id n got res c' := by
        intro _ hx
        cases hx
        exact ⟨⟨bs, rfl, hbn, hinv2⟩, (fun c => by injection c with c; rw [c] at hok; exact hok.panic rfl), (fun m c => by cases c)⟩
      by_cases hpd : pe = .done
      · subst hpd
        dsimp only at hp
        split at hp
        · exact bodyEnd_ok hu hbn hinv2 hp
        · have hav : (c2.rx id).avail.length + 2 ≤ k := by
            have hlt : 0 < bs.length := List.length_pos_iff.mpr hbne
            have q1 := hok.all
            have q2 := hok.off
            rw [put_rx] at q1 q2
            have q3 : r1.off ≤ r1.all.length := hr.wf.off
            have q4 := hr.off
            have q5 := hr.all
            unfold Rx.avail at hk ⊢
            rw [List.length_drop] at hk ⊢
            rw [q1, q5]
            rw [q5] at q3
            omega
          have hb := ih hinv2 hav hp
          obtain ⟨bs2, m1, m2, m3⟩ := hb.more
          refine ⟨⟨bs ++ bs2, by rw [m1, List.append_assoc], by rw [List.length_append]; omega, ?_⟩, hb.panic, hb.count⟩
          rw [addLog_append] at m3
          rw [List.map_append]; exact m3
      · refine hstop hpd ?_
        rw [← hp]
        cases pe <;> first | rfl | exact absurd rfl hpd
    · by_cases hpd : e = .done
      · subst hpd
        exact bodyEnd_ok (bs := []) hu (Nat.zero_le _) hinv1 (by rw [List.append_nil]; exact hp)
      · have : ((Except.error e, got), c.put id s1 r1) = (res, c') := by
          rw [← hp]
          cases e <;> first | rfl | exact absurd rfl hpd
        cases this
        exact ⟨⟨[], by simp, Nat.zero_le _, hinv1⟩, by simpa using hpan, (fun m c => by cases c)⟩

end Verif.H3
