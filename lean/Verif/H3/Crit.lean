import Verif.H3.Track

/-! Critical streams: the type a stream begins with and the role it has. -/

namespace Verif.H3
open Verif

variable {cf : Bool × Option Nat} {used : Nat → Bool} {log : Nat → List Out}

/-- The bytes read. -/
def Rx.seen (r : Rx) : Bytes := r.all.take r.off

/-- What a stream type says of the roles. -/
def Roles (c : C) (id v : Nat) : Prop :=
  v ≠ 1 ∧ (v = 0 → c.peerControl = some id) ∧ (v = 2 → c.peerEnc = some id) ∧ (v = 3 → c.peerDec = some id)

/-- The type of a stream, if it has been read, agrees with the roles. -/
def Typed (c : C) (id : Nat) (r : Rx) : Prop :=
  r.err = none → ∀ v b y, r.seen = b ++ y → IsVarint v b → Roles c id v

structure ET (c : C) : Prop where
  entry : ∀ i s, c.streams i = some s → ∀ t, t.crit = true → s.ty = some t → c.role t = some i
  typed : ∀ id, isBidi id = false → Typed c id (c.rx id)

theorem Roles.mono {c c' : C} {id v : Nat} (h : Roles c id v) (hr : ∀ t i, c.role t = some i → c'.role t = some i) :
    Roles c' id v :=
  ⟨h.1, fun e => hr .control _ (h.2.1 e), fun e => hr .qpackEncoder _ (h.2.2.1 e), fun e => hr .qpackDecoder _ (h.2.2.2 e)⟩

theorem Typed.mono {c c' : C} {id : Nat} {r r' : Rx} (h : Typed c id r) (hr : ∀ t i, c.role t = some i → c'.role t = some i)
    (h1 : r'.seen = r.seen) (h2 : r'.err = none → r.err = none) : Typed c' id r' :=
  fun e v b y hb hv => (h (h2 e) v b y (by rw [← h1]; exact hb) hv).mono hr

theorem typed_nil {c : C} {id : Nat} {r : Rx} (h : r.seen = []) : Typed c id r := by
  intro _ v b y hb hv
  rw [h] at hb
  have := isVarint_pos hv
  have e := congrArg List.length hb
  simp only [List.length_nil, List.length_append] at e
  omega

/-- The entry of a stream that is read tells its type. -/
theorem typed_live {c : C} {limit id : Nat} {peer : Bool} {s : Strm} {r : Rx} {out : List Out}
    (hl : Live limit id peer s r out) (hb : isBidi id = false)
    (hs : ∀ t, t.crit = true → s.ty = some t → c.role t = some id) : Typed c id r := by
  intro he v b y hx hv
  obtain ⟨k, _, m, k3⟩ := hl.hist
  rw [k3 he] at m
  have hx : r.all.take r.off = b ++ y := hx
  rw [hx] at m
  generalize hz : b ++ y = z at m
  have hc : ∀ {hdr rest : Bytes}, Head id s hdr → b ++ y = hdr ++ rest → Roles c id v := by
    intro hdr rest hh e
    unfold Head at hh
    rw [hb, if_neg (by decide)] at hh
    have := (isVarint_prefix hv hh.2 e).1
    subst this
    exact ⟨by omega, fun _ => hs .control rfl hh.1, by omega, by omega⟩
  cases m with
  | start h1 h2 h3 h4 h5 =>
    rcases varBuf_open h5 v b y with h | h
    · exact absurd hz.symm h
    · exact absurd hv h
  | @other v' x' y' h1 h2 h3 h4 =>
    have := (isVarint_prefix hv h3 hz).1
    subst this
    obtain ⟨g1, g2, g3⟩ := h4
    refine ⟨g2, fun e => absurd e g1, fun e => ?_, fun e => ?_⟩
    · subst e; exact hs .qpackEncoder rfl g3
    · subst e; exact hs .qpackDecoder rfl g3
  | ft h => exact hc h (by rw [hz, List.append_assoc])
  | fl h => exact hc h (by rw [hz, List.append_assoc])
  | fp h => exact hc h (by rw [hz, List.append_assoc])
  | sk h => exact hc h (by rw [hz, List.append_assoc])
  | da h => exact hc h (by rw [hz, List.append_assoc])

theorem Tr.lerr_none {c c' : C} {res : Option Res} (h : Tr c res c') (hn : c'.localErr = none) : c.localErr = none := by
  cases hc : c.localErr with
  | none => rfl
  | some x =>
    have := h.lerr (by rw [hc]; rfl)
    rw [hn, hc] at this; cases this

theorem Tr.entry {c c' : C} {res : Option Res} (h : Tr c res c') (hn : c'.localErr = none)
    (e : ∀ i s, c.streams i = some s → ∀ t, t.crit = true → s.ty = some t → c.role t = some i) :
    ∀ i s, c'.streams i = some s → ∀ t, t.crit = true → s.ty = some t → c'.role t = some i := by
  intro i s hs t ht hty
  rcases h.crit hn i s hs t ht hty with ⟨s1, h1, h2⟩ | h1
  · exact h.role t i (e i s1 h1 t ht h2)
  · exact h1

/-- Nothing is read. -/
theorem Tr.et {c c' : C} {res : Option Res} (h : Tr c res c') (hn : c'.localErr = none) (e : ET c)
    (hr : ∀ j, (c'.rx j).seen = (c.rx j).seen ∧ ((c'.rx j).err = none → (c.rx j).err = none)) : ET c' :=
  ⟨h.entry hn e.entry, fun id hb => (e.typed id hb).mono h.role (hr id).1 (hr id).2⟩

/-- Composition with changes that come after the result. -/
theorem Tr.post {a b c : C} {res : Option Res} (h : Tr a res b) (g : Tr b none c) : Tr a res c where
  server := g.server.trans h.server
  dead := g.dead
  lerr := fun e => by
    have := h.lerr e
    rw [g.lerr (by rw [this]; exact e), this]
  code := fun e => by
    have : c.localErr = b.localErr := by
      cases hb : b.localErr with
      | none => exact g.code hb
      | some x => rw [g.lerr (by rw [hb]; rfl), hb]
    rw [this]
    exact h.code e
  goaway := by
    have h1 : c.peerGoaway = b.peerGoaway := by
      rcases g.goaway with ⟨_, c, _⟩ | ⟨_, h⟩
      · cases c
      · exact h
    rw [h1]
    exact h.goaway
  push := Nat.le_trans h.push g.push
  prio := ⟨h.prio.1, g.prio.2.trans h.prio.2⟩
  role := fun t i e => g.role t i (h.role t i e)
  crit := fun e i s' hs t ht hty => by
    rcases g.crit e i s' hs t ht hty with ⟨s1, h1, h2⟩ | h1
    · rcases h.crit (g.lerr_none e) i s1 h1 t ht h2 with h3 | h3
      · exact .inl h3
      · exact .inr (g.role t i h3)
    · exact .inr h1

/-- A result without event nor error code counts as none. -/
theorem Tr.done {a b : C} (h : Tr a (some (.error .done)) b) : Tr a none b where
  server := h.server
  dead := h.dead
  lerr := h.lerr
  code := fun e => by
    rcases h.code e with h | ⟨_, h⟩ | ⟨h, _⟩ | ⟨_, h, _⟩
    · cases h
    · exact h
    · cases h
    · cases h
  goaway := by
    rcases h.goaway with ⟨_, c, _⟩ | ⟨_, h⟩
    · cases c
    · exact .inr ⟨(fun _ c => by cases c), h⟩
  push := h.push
  prio := ⟨(fun _ c => by cases c), h.prio.2⟩
  role := h.role
  crit := h.crit

theorem Tr.reset {a b : C} {x i : Nat} {ev : Event} (h : Tr a (some (.error (.streamReset x))) b) (he : ev ≠ .goAway)
    (hp : ev ≠ .priorityUpdate) :
    Tr a (some (.ok (i, ev))) b where
  server := h.server
  dead := h.dead
  lerr := h.lerr
  code := fun e => by
    rcases h.code e with h | ⟨_, h⟩ | ⟨h, _⟩ | ⟨_, h, _⟩
    · cases h
    · exact h
    · cases h
    · cases h
  goaway := by
    rcases h.goaway with ⟨_, c, _⟩ | ⟨_, h⟩
    · cases c
    · exact .inr ⟨(fun _ c => by cases c; exact he rfl), h⟩
  push := h.push
  prio := ⟨(fun _ c => by cases c; exact absurd rfl hp), h.prio.2⟩
  role := h.role
  crit := h.crit

/-! ### Processing -/

theorem processStream_et {spare : Nat → Nat → Nat} {polling : Bool} {id : Nat} {c c' : C} {res : Res}
    (hi : Inv cf c used log) (hu : used id = true) (hn : c.localErr = none)
    (h : c.processStream spare polling id = (res, c')) (e : ET c) :
    Tr c (some res) c' ∧ (c'.localErr = none → ET c') := by
  have ht : Tr c (some res) c' := by
    have := processStream_tr (spare := spare) (polling := polling) (id := id) hi.dead
    rw [h] at this; exact this
  refine ⟨ht, fun hn' => ⟨ht.entry hn' e.entry, fun j hb => ?_⟩⟩
  have hmv : ∀ {c' : C}, Tr c (some res) c' → Eff id c c' → j ≠ id → Typed c' j (c'.rx j) := by
    intro c' ht he hj
    rw [he.rx j hj]
    exact (e.typed j hb).mono ht.role rfl (fun e => e)
  rcases hi.notBroken hn hu with o | o
  · have hr := processStream_ok hi.dead (fun _ => hn) o h
    by_cases hj : j = id
    · subst hj
      rcases hr.out with ⟨o1, _⟩ | ⟨o1, _⟩
      · refine typed_live o1 hb fun t tc hty => ?_
        unfold C.cur at hty
        cases hs : c'.streams j with
        | some s =>
          rw [hs] at hty
          exact ht.entry hn' e.entry j s hs t tc hty
        | none =>
          rw [hs] at hty
          have : (c'.fresh j).ty = none := (new_uni hb _ _ _).1
          have hty : (c'.fresh j).ty = some t := hty
          rw [this] at hty; cases hty
      · have := o1.lerr
        rw [hn'] at this; cases this
    · exact hmv ht hr.eff hj
  · obtain ⟨he, o2, _⟩ := processStream_closed o h
    by_cases hj : j = id
    · subst hj
      refine (e.typed j hb).mono ht.role ?_ (fun x => he.err ▸ x)
      unfold Rx.seen
      rw [finished_off o2.wf o2.fin, finished_off o.wf o.fin, he.all]
    · exact hmv ht he hj

/-! ### Ends of streams -/

theorem tr_shrink {c c' : C} (hd : c.dead = false) (h1 : c'.isServer = c.isServer)
    (h2 : c'.dead = c.dead) (h3 : c'.localErr = c.localErr) (h4 : c'.peerGoaway = c.peerGoaway)
    (h5 : c'.maxPushId = c.maxPushId) (h8 : c'.maxStreamsBidi = c.maxStreamsBidi) (h6 : ∀ t, c'.role t = c.role t)
    (h7 : ∀ i s', c'.streams i = some s' → ∃ s, c.streams i = some s ∧ s.ty = s'.ty) : Tr c none c' :=
  .plain hd plain_none h1 h2 h3 h4 h5 h8 h6 fun i s' h => .inl (h7 i s' h)

theorem tr_remove {c : C} {id : Nat} (hd : c.dead = false) : Tr c none (c.remove id) := by
  refine tr_shrink hd rfl rfl rfl rfl rfl rfl (fun t => by cases t <;> rfl) fun i s' h => ?_
  by_cases e : i = id
  · subst e
    rw [show (c.remove i).streams i = none from upd_same _ _ _] at h
    cases h
  · rw [show (c.remove id).streams i = c.streams i from upd_other _ _ e] at h
    exact ⟨s', h, rfl⟩

theorem tr_removeLocalFinished {c : C} {id : Nat} (hd : c.dead = false) :
    Tr c none (c.removeLocalFinished id) ∧ (c.removeLocalFinished id).rx = c.rx ∧
      (c.removeLocalFinished id).localErr = c.localErr := by
  unfold C.removeLocalFinished
  split
  · split
    · exact ⟨tr_remove hd, rfl, rfl⟩
    · exact ⟨.same hd plain_none, rfl, rfl⟩
  · exact ⟨.same hd plain_none, rfl, rfl⟩

theorem tr_finishIf {c : C} {id : Nat} (hd : c.dead = false) :
    Tr c none (c.finishIf id) ∧ (c.finishIf id).rx = c.rx ∧ (c.finishIf id).localErr = c.localErr := by
  unfold C.finishIf
  split
  · unfold C.processFinished
    split
    · exact ⟨.same hd plain_none, rfl, rfl⟩
    rename_i s hs
    have hf : Tr c none { c.setStrm id s.finish with finished := c.finished ++ [id] } := by
      have h1 := tr_setStrm (res := none) (s' := s.finish) hd plain_none hs (by simp [Strm.finish, Strm.transition])
      refine h1.trans (tr_shrink h1.dead rfl rfl rfl rfl rfl rfl (fun t => by cases t <;> rfl) fun i s' h => ⟨s', h, rfl⟩)
    split
    · exact ⟨.same hd plain_none, rfl, rfl⟩
    split
    · exact ⟨hf, rfl, rfl⟩
    · exact ⟨hf, rfl, rfl⟩
    · exact ⟨tr_remove hd, rfl, rfl⟩
    · exact ⟨tr_remove hd, rfl, rfl⟩
    · exact ⟨.same hd plain_none, rfl, rfl⟩
    · exact ⟨.same hd plain_none, rfl, rfl⟩
    · exact ⟨.same hd plain_none, rfl, rfl⟩
  · exact ⟨.same hd plain_none, rfl, rfl⟩

/-! ### Polling -/

/-- What `poll` does to the connection. -/
def Cont2 (cf : Bool × Option Nat) (used : Nat → Bool) (log : Nat → List Out) (k : C → Res × C) : Prop :=
  ∀ c res c', Inv cf c used log → c.localErr = none → ET c → k c = (res, c') →
    Tr c (some res) c' ∧ (c'.localErr = none → ET c')

theorem et_same {c c' : C} {res : Option Res} (h : Tr c res c') (hrx : c'.rx = c.rx) (e : ET c) (hn : c'.localErr = none) : ET c' :=
  h.et hn e fun j => by rw [hrx]; exact ⟨rfl, fun e => e⟩

theorem resFailed_et {c c' : C} {res : Res} (hd : c.dead = false) (hn : c.localErr = none)
    (h : resFailed c.failCritical = (res, c')) : Tr c (some res) c' ∧ (c'.localErr = none → ET c') := by
  have ht : Tr c (some res) c' := by
    have := tr_resFailed (c := c) (e := .closedCriticalStream) hd rfl
    have h : resFailed (c.fail .closedCriticalStream) = (res, c') := h
    rw [h] at this; exact this
  refine ⟨ht, fun hn' => ?_⟩
  have hx : c'.localErr = some 0x104 := by
    have : c' = (c.fail .closedCriticalStream).2 := by
      have := congrArg Prod.snd h; exact this.symm
    rw [this]
    unfold C.fail C.closeWith C.close
    rw [hd, hn]; rfl
  rw [hx] at hn'; cases hn'

theorem processControl_et {spare : Nat → Nat → Nat} {c c' : C} {id : Nat} {res : Res} (h : Inv cf c used log)
    (hn : c.localErr = none) (e : ET c) (hp : c.processControl spare id = (res, c')) :
    Tr c (some res) c' ∧ (c'.localErr = none → ET c') := by
  unfold C.processControl at hp
  split at hp
  · exact resFailed_et h.dead hn hp
  rename_i hf
  have hu : used id = true := by
    rcases h.mode id with ⟨_, o⟩ | ⟨a, _⟩
    · rw [o.rx] at hf; exact absurd rfl hf
    · exact a
  split at hp
  · cases hp; exact ⟨.same h.dead (plain_soft rfl), fun _ => e⟩
  cases hs : c.processStream spare true id with
  | mk r1 c1 =>
  obtain ⟨ht, he⟩ := processStream_et h hu hn hs e
  rw [hs] at hp
  by_cases hd : r1 = .error .done
  · subst hd
    have hn1 : c1.localErr = none := ht.done.code hn
    dsimp only at hp
    split at hp
    · obtain ⟨q1, q2⟩ := resFailed_et ht.dead hn1 hp
      exact ⟨ht.done.trans q1, q2⟩
    · cases hp; exact ⟨ht, he⟩
  · have : (r1, c1) = (res, c') := by
      rw [← hp]
      split
      · rename_i hx; cases hx; exact absurd rfl hd
      · rfl
    cases this
    exact ⟨ht, he⟩

theorem control_et {spare : Nat → Nat → Nat} {sel : C → Option Nat} {k : C → Res × C}
    (hk : Cont2 cf used log k) : Cont2 cf used log (C.control spare sel k) := by
  intro c res c' h hn e hp
  unfold C.control at hp
  split at hp
  · exact hk c res c' h hn e hp
  · rename_i id hid
    cases hx : c.processControl spare id with
    | mk r1 c1 =>
    rw [hx] at hp
    obtain ⟨q1, q2⟩ := processControl_et h hn e hx
    rcases processControl_inv h hn hx with ⟨rfl, h1, h2⟩ | ⟨h1, h2⟩
    · obtain ⟨q3, q4⟩ := hk c1 res c' h1 h2 (q2 h2) hp
      exact ⟨q1.done.trans q3, q4⟩
    · have : (r1, c1) = (res, c') := by
        rw [← hp]
        split
        · rename_i hx; cases hx; exact absurd rfl h1
        · rfl
      cases this
      exact ⟨q1, q2⟩

theorem recv_seen {r : Rx} (h : r.WF) : (r.recv 0).2.seen = r.seen ∧ (r.recv 0).2.err = r.err := by
  cases hx : r.recv 0 with
  | mk res r' =>
  have key : ∀ {bs}, Rd r r' bs → bs = [] → r'.seen = r.seen ∧ r'.err = r.err := by
    intro bs hr hb
    subst hb
    refine ⟨?_, hr.err⟩
    unfold Rx.seen
    rw [hr.all, hr.off]; rfl
  cases res with
  | ok x =>
    obtain ⟨bs, fin⟩ := x
    obtain ⟨a1, a2, _⟩ := recv_ok h hx
    exact key a1 (by rw [a2]; rfl)
  | error x => exact key (recv_err h hx).1 rfl

theorem finishedEvent_et {c : C} {id : Nat} (hd : c.dead = false) (hw : (c.rx id).WF) (e : ET c) (hn : c.localErr = none) :
    Tr c none (c.finishedEvent id).2 ∧ ET (c.finishedEvent id).2 ∧ (c.finishedEvent id).1 ≠ .goAway ∧
    (c.finishedEvent id).1 ≠ .priorityUpdate := by
  have h1 : Tr c none (c.setRx id ((c.rx id).recv 0).2) := tr_setRx hd plain_none
  have h2 : ET (c.setRx id ((c.rx id).recv 0).2) := by
    refine h1.et hn e fun j => ?_
    by_cases hj : j = id
    · subst hj
      rw [show (c.setRx j ((c.rx j).recv 0).2).rx j = ((c.rx j).recv 0).2 from upd_same _ _ _]
      obtain ⟨a, b⟩ := recv_seen hw
      exact ⟨a, fun e => by rw [← b]; exact e⟩
    · rw [show (c.setRx id ((c.rx id).recv 0).2).rx j = c.rx j from upd_other _ _ hj]
      exact ⟨rfl, fun e => e⟩
  unfold C.finishedEvent
  split
  · split
    · rename_i x r hx
      rw [hx] at h1 h2
      exact ⟨h1, h2, (fun c => by cases c), (fun c => by cases c)⟩
    · rename_i x r _ hx
      rw [hx] at h1 h2
      exact ⟨h1, h2, (fun c => by cases c), (fun c => by cases c)⟩
  · exact ⟨.same hd plain_none, e, (fun c => by cases c), (fun c => by cases c)⟩

theorem Inv.wf {c : C} (h : Inv cf c used log) (hn : c.localErr = none) {id : Nat} (hu : used id = true) : (c.rx id).WF := by
  rcases h.notBroken hn hu with o | o
  · exact o.wf
  · exact o.wf

theorem popFinished_et {c c' : C} {ev : Option (Nat × Event)} (h : Inv cf c used log) (hn : c.localErr = none)
    (e : ET c) (hp : c.popFinished = (ev, c')) :
    Tr c none c' ∧ ET c' ∧ (∀ i, ev ≠ some (i, .goAway)) ∧ ∀ i, ev ≠ some (i, .priorityUpdate) := by
  unfold C.popFinished at hp
  split at hp
  · cases hp
    exact ⟨.same h.dead plain_none, e, (fun i c => by cases c), (fun i c => by cases c)⟩
  · rename_i id l hfin
    have hid : id ∈ c.finished := by rw [hfin]; simp
    obtain ⟨hu, _⟩ := h.fins id hid
    have h0 : Tr c none { c with finished := l } :=
      tr_shrink h.dead rfl rfl rfl rfl rfl rfl (fun t => by cases t <;> rfl) fun i s' h => ⟨s', h, rfl⟩
    obtain ⟨h1, h2, h3⟩ := tr_removeLocalFinished (c := { c with finished := l }) (id := id) h0.dead
    generalize hc1 : ({ c with finished := l } : C).removeLocalFinished id = c1 at hp h1 h2 h3
    have h4 : Tr c none c1 := h0.trans h1
    have e1 : ET c1 := et_same h4 h2 e (h3.trans hn)
    have hw : (c1.rx id).WF := by rw [h2]; exact h.wf hn hu
    obtain ⟨g1, g2, g3, g4⟩ := finishedEvent_et h4.dead hw e1 (h3.trans hn)
    generalize c1.finishedEvent id = x at hp g1 g2 g3 g4
    obtain ⟨ev1, c2⟩ := x
    cases hp
    exact ⟨h4.trans g1, g2, (fun i c => by cases c; exact g3 rfl), (fun i c => by cases c; exact g4 rfl)⟩

theorem popOr_et {k : C → Res × C} (hk : Cont2 cf used log k) : Cont2 cf used log (C.popOr k) := by
  intro c res c' h hn e hp
  unfold C.popOr at hp
  cases hx : c.popFinished with
  | mk ev c1 =>
  rw [hx] at hp
  have hok := popFinished_inv h hn hx
  obtain ⟨q1, q2, q3, q4⟩ := popFinished_et h hn e hx
  cases ev with
  | none =>
    obtain ⟨q4, q5⟩ := hk c1 res c' hok.inv (by rw [hok.lerr]; exact hn) q2 hp
    exact ⟨q1.trans q4, q5⟩
  | some x =>
    obtain ⟨i, x⟩ := x
    cases hp
    refine ⟨⟨q1.server, q1.dead, q1.lerr, q1.code, ?_, q1.push,
      ⟨(fun g c => by cases c; exact absurd rfl (q4 _)), q1.prio.2⟩, q1.role, q1.crit⟩, fun _ => q2⟩
    rcases q1.goaway with ⟨_, c, _⟩ | ⟨_, h⟩
    · cases c
    · exact .inr ⟨fun g c => by cases c; exact q3 _ rfl, h⟩

theorem readLoop_et {spare : Nat → Nat → Nat} {k : C → Res × C} (hk : Cont2 cf used log k) :
    ∀ l : List Nat, (∀ i ∈ l, used i = true) → Cont2 cf used log (C.readLoop spare k l) := by
  intro l
  induction l with
  | nil => intro _; exact hk
  | cons id l ih =>
    intro hl c res c' h hn e hp
    have hu := hl id (List.mem_cons_self ..)
    unfold C.readLoop at hp
    cases hs : c.processStream spare true id with
    | mk r1 c1 =>
    have hok := processStream_inv h hu (fun _ => hn) (fun c => by cases c) (h.notBroken hn hu) hs
    obtain ⟨ht, he⟩ := processStream_et h hu hn hs e
    rw [hs] at hp
    obtain ⟨f1, f2, f3⟩ := tr_finishIf (id := id) ht.dead
    cases r1 with
    | ok ev =>
      cases hp
      exact ⟨ht.post f1, fun hn' => et_same f1 f2 (he (by rw [← f3]; exact hn')) hn'⟩
    | error x =>
      have hgen : (Except.error x, c1) = (res, c') → Tr c (some res) c' ∧ (c'.localErr = none → ET c') := by
        intro hx
        cases hx
        exact ⟨ht, he⟩
      cases x with
      | done =>
        dsimp only at hp
        have hn1 : c1.localErr = none := ht.done.code hn
        have hinv : Inv cf c1 used log := hok.inv
        obtain ⟨q1, q2, _⟩ := finishIf_inv hinv hu
        obtain ⟨g1, g2⟩ := ih (fun i hi => hl i (List.mem_cons_of_mem _ hi)) _ res c' q1 (by rw [q2]; exact hn1)
          (et_same f1 f2 (he hn1) (by rw [q2]; exact hn1)) hp
        exact ⟨(ht.done.trans f1).trans g1, g2⟩
      | streamReset x =>
        dsimp only at hp
        cases hp
        obtain ⟨f1, f2, f3⟩ := tr_removeLocalFinished (id := id) ht.dead
        exact ⟨(ht.reset (fun c => by cases c) (fun c => by cases c)).post f1, fun hn' => et_same f1 f2 (he (by rw [← f3]; exact hn')) hn'⟩
      | _ => exact hgen hp

theorem poll_et {spare : Nat → Nat → Nat} {rs : List Nat} {c c' : C} {res : Res} (h : Inv cf c used log)
    (hr : ∀ i ∈ rs, used i = true) (e : c.localErr = none → ET c) (hp : c.poll spare rs = (res, c')) :
    Tr c (some res) c' ∧ (c'.localErr = none → ET c') := by
  unfold C.poll at hp
  split at hp
  · cases hp
    exact ⟨.same h.dead (plain_soft rfl), e⟩
  · rename_i hn
    have hn : c.localErr = none := by simpa using hn
    have hlast : Cont2 cf used log (fun c => (.error .done, c)) := by
      intro c res c' h _ e hx
      cases hx
      exact ⟨.same h.dead (plain_soft rfl), fun _ => e⟩
    exact control_et (control_et (control_et (popOr_et (readLoop_et (popOr_et hlast) rs hr)))) c res c' h hn (e hn) hp

/-! ### Bodies -/

/-- The result of `recv_body` as one of `poll`. -/
def bodyRes (id : Nat) : Except Err Nat → Res
  | .ok _ => .ok (id, .data)
  | .error e => .error e

theorem tryData_ty {s s' : Strm} {r r' : Rx} {n : Nat} {res : Except Err (Bytes × Bool)}
    (h : s.tryData r n = (res, s', r')) : s'.ty = s.ty ∧ ∀ e, res = .error e → e.soft = true := by
  unfold Strm.tryData at h
  split at h
  · cases h; exact ⟨rfl, fun e c => by cases c; rfl⟩
  · rename_i hx; cases h; exact ⟨rfl, fun e c => by cases c; exact recv_soft hx⟩
  · dsimp only at h
    cases h
    refine ⟨?_, fun e c => by cases c⟩
    have hdd : ∀ t : Strm, t.dataDone.ty = t.ty := by
      intro t
      unfold Strm.dataDone
      split
      · exact (transition_ty _ _ _ _).1
      · rfl
    rw [hdd]
    split <;> rfl

theorem bodyEnd_tr {id : Nat} {c : C} {got : Bytes} (hd : c.dead = false) :
    Tr c (some (bodyRes id (c.bodyEnd id got).1.1)) (c.bodyEnd id got).2 := by
  have h1 := (tr_finishIf (id := id) hd).1
  unfold C.bodyEnd
  dsimp only
  split
  · exact h1.trans (.same h1.dead (plain_soft rfl))
  · exact h1.trans (.same h1.dead ⟨(fun _ c => by cases c), (fun _ c => by cases c), (fun _ c => by cases c)⟩)

theorem bodyLoop_et {spare : Nat → Nat → Nat} {id : Nat} (hu : used id = true) : ∀ {k n : Nat} {log : Nat → List Out}
    {got : Bytes} {c c' : C} {res : BodyRes}, Inv cf c used log → (c.localErr = none → ET c) →
    C.bodyLoop spare id k n got c = (res, c') → Tr c (some (bodyRes id res.1)) c' ∧ (c'.localErr = none → ET c') := by
  intro k
  induction k with
  | zero =>
    intro n log got c c' res h e hp
    cases hp
    exact ⟨.same h.dead (plain_soft rfl), e⟩
  | succ k ih =>
    intro n log got c c' res h e hp
    have hend : ∀ {c c' : C} {res : BodyRes} {got : Bytes}, c.dead = false → (c.localErr = none → ET c) → c.bodyEnd id got = (res, c') →
        Tr c (some (bodyRes id res.1)) c' ∧ (c'.localErr = none → ET c') := by
      intro c c' res got hd e hx
      have h1 := bodyEnd_tr (id := id) (c := c) (got := got) hd
      obtain ⟨f1, f2, f3⟩ := tr_finishIf (id := id) hd
      have : (c.bodyEnd id got).2 = c.finishIf id := rfl
      rw [← this, hx] at f1 f2 f3
      rw [hx] at h1
      exact ⟨h1, fun hn => et_same f1 f2 (e (by rw [← f3]; exact hn)) hn⟩
    unfold C.bodyLoop at hp
    split at hp
    · exact hend h.dead e hp
    split at hp
    · cases hp
      exact ⟨.same h.dead (plain_soft rfl), e⟩
    rename_i s hs
    split at hp
    · exact hend h.dead e hp
    rename_i hst
    have hst : s.state = .data := Classical.byContradiction hst
    obtain ⟨_, ho, hnf⟩ := h.data (id := id) (by rw [cur_some hs]; exact hst)
    cases ht : s.tryData (c.rx id) n with
    | mk q y =>
    obtain ⟨s1, r1⟩ := y
    rw [ht] at hp
    obtain ⟨bs, hr, hbn, ho1, hres⟩ := tryData_ok hs ho hst ht
    obtain ⟨hty, hsoft⟩ := tryData_ty ht
    have heff := eff_put (s := s1) hr
    have hinv1 : Inv cf (c.put id s1 r1) used (addLog log id (bs.map .byte)) := by
      refine h.update rfl (fun j hj => heff.same hj) (fun j hj => upd_other _ _ hj) hu (fun j hj => .inl hj) (.inl ?_)
        (fun e => absurd e hnf)
      rw [addLog_self]; exact ho1
    have htr : ∀ {res}, Plain res → Tr c res (c.put id s1 r1) := fun hp => tr_put h.dead hp hs hty
    have het : (c.put id s1 r1).localErr = none → ET (c.put id s1 r1) := by
      intro hn
      have e := e hn
      refine ⟨(htr plain_none).entry hn e.entry, fun j hb => ?_⟩
      by_cases hj : j = id
      · subst hj
        refine typed_live ho1 hb fun t tc hty => ?_
        rw [cur_put] at hty
        exact (htr plain_none).entry hn e.entry j s1 (put_strm _ _ _ _) t tc hty
      · rw [heff.rx j hj]
        exact (e.typed j hb).mono (htr plain_none).role rfl (fun e => e)
    rcases hres with ⟨fin, rfl⟩ | ⟨x, rfl, rfl, hpan⟩
    · dsimp only at hp
      split at hp
      · obtain ⟨q1, q2⟩ := hend hinv1.dead het hp
        exact ⟨(htr plain_none).trans q1, q2⟩
      cases hps : (c.put id s1 r1).processStream spare false id with
      | mk pr c2 =>
      rw [hps] at hp
      have hok := processStream_inv hinv1 hu (fun c => by cases c) (fun _ => hnf)
        (.inl (by rw [addLog_self]; exact ho1)) hps
      obtain ⟨pe, rfl⟩ := hok.body rfl
      have hinv2 : Inv cf c2 used (addLog log id (bs.map .byte)) := hok.inv
      have ht2 : Tr (c.put id s1 r1) (some (.error pe)) c2 := by
        have := processStream_tr (spare := spare) (polling := false) (id := id) hinv1.dead
        rw [hps] at this; exact this
      have he2 : c2.localErr = none → ET c2 := fun hn =>
        (processStream_et hinv1 hu (ht2.lerr_none hn) hps (het (ht2.lerr_none hn))).2 hn
      by_cases hpd : pe = .done
      · subst hpd
        dsimp only at hp
        split at hp
        · obtain ⟨q1, q2⟩ := hend hinv2.dead he2 hp
          exact ⟨((htr plain_none).trans ht2.done).trans q1, q2⟩
        · obtain ⟨q1, q2⟩ := ih hinv2 he2 hp
          exact ⟨((htr plain_none).trans ht2.done).trans q1, q2⟩
      · have : ((Except.error pe, got ++ bs), c2) = (res, c') := by
          rw [← hp]
          cases pe <;> first | rfl | exact absurd rfl hpd
        cases this
        exact ⟨(htr plain_none).trans ht2, he2⟩
    · by_cases hpd : x = .done
      · subst hpd
        obtain ⟨q1, q2⟩ := hend hinv1.dead het hp
        exact ⟨(htr plain_none).trans q1, q2⟩
      · have : ((Except.error x, got), c.put id s1 r1) = (res, c') := by
          rw [← hp]
          cases x <;> first | rfl | exact absurd rfl hpd
        cases this
        exact ⟨htr (plain_soft (hsoft _ rfl)), het⟩

theorem recvBody_et {spare : Nat → Nat → Nat} {id n : Nat} {c c' : C} {res : BodyRes} (hu : used id = true)
    (h : Inv cf c used log) (e : c.localErr = none → ET c) (hp : c.recvBody spare id n = (res, c')) :
    Tr c (some (bodyRes id res.1)) c' ∧ (c'.localErr = none → ET c') := bodyLoop_et hu h e hp

/-! ### Executions -/

/-- The transport. -/
theorem setRx_et {c : C} {id : Nat} {r : Rx} (hd : c.dead = false) (e : c.localErr = none → ET c)
    (h : c.localErr = none → isBidi id = false → Typed c id (c.rx id) → Typed c id r) :
    (c.setRx id r).localErr = none → ET (c.setRx id r) := by
  intro hn
  have hn : c.localErr = none := hn
  have ht : Tr c none (c.setRx id r) := tr_setRx hd plain_none
  refine ⟨ht.entry hn (e hn).entry, fun j hb => ?_⟩
  by_cases hj : j = id
  · subst hj
    rw [show (c.setRx j r).rx j = r from upd_same _ _ _]
    exact (h hn hb ((e hn).typed j hb)).mono ht.role rfl (fun e => e)
  · rw [show (c.setRx id r).rx j = c.rx j from upd_other _ _ hj]
    exact ((e hn).typed j hb).mono ht.role rfl (fun e => e)

theorem step_et {w : W} (h : w.Inv cf) (e : w.c.localErr = none → ET w.c) (a : Act) :
    (w.step a).c.localErr = none → ET (w.step a).c := by
  cases a with
  | opened id =>
    simp only [W.step]
    split
    · exact setRx_et h.dead e fun _ _ _ => typed_nil rfl
    · exact e
  | arrive id bs fin =>
    simp only [W.step]
    split
    · rename_i hu
      refine setRx_et h.dead e fun hn hb ht => ?_
      unfold Rx.arrive
      split
      · exact ht
      rename_i hg
      simp only [Bool.or_eq_true, not_or, Bool.not_eq_true] at hg
      split
      · rename_i hd
        rcases h.notBroken hn hu with o | o
        · obtain ⟨k, k1, k2, k3⟩ := o.hist
          have hst := o.drain hd
          intro he v b y hx hv
          have hx : ((w.c.rx id).all ++ bs).take ((w.c.rx id).all ++ bs).length = b ++ y := hx
          rw [List.take_length] at hx
          have he : (w.c.rx id).err = none := he
          rw [k3 he] at k2
          generalize hz : (w.c.rx id).all.take (w.c.rx id).off = z at k2
          generalize w.log id = out at k2
          cases k2 with
          | start _ h2 => rw [hst] at h2; cases h2
          | ft _ h2 => rw [hst] at h2; cases h2
          | fl _ h2 => rw [hst] at h2; cases h2
          | fp _ h2 => rw [hst] at h2; cases h2
          | sk _ h2 => rw [hst] at h2; cases h2
          | da _ h2 => rw [hst] at h2; cases h2
          | @other v' x' y' h1 h2 h3 h4 =>
            have hall : (w.c.rx id).all ++ bs = x' ++ (y' ++ ((w.c.rx id).all.drop (w.c.rx id).off ++ bs)) := by
              rw [← List.append_assoc x', ← hz, ← List.append_assoc, List.take_append_drop]
            rw [hall] at hx
            have := (isVarint_prefix h3 hv hx).1
            subst this
            exact ht he v' x' y' hz h3
        · have := finished_fin o.wf o.fin
          rw [hg.2] at this; cases this
      · refine ht.mono (fun _ _ e => e) ?_ (fun e => e)
        show ((w.c.rx id).all ++ bs).take (w.c.rx id).off = _
        exact take_append_le (h.wf hn hu).off
    · exact e
  | reset id code =>
    simp only [W.step]
    split
    · refine setRx_et h.dead e fun hn hb ht => ?_
      unfold Rx.reset
      split
      · exact ht
      · intro c; cases c
    · exact e
  | sent id =>
    simp only [W.step]
    split
    · refine setRx_et h.dead e fun hn hb ht => ?_
      unfold Rx.sent
      split
      · exact ht
      · exact ht
    · exact e
  | request id =>
    simp only [W.step]
    split
    · intro hn
      have hn : w.c.localErr = none := hn
      have e := e hn
      refine ⟨fun i s hs t tc hty => ?_, fun j hb => ?_⟩
      · by_cases hi : i = id
        · subst hi
          have : (w.c.request i).streams i = some { Strm.new i true (w.c.maxField.getD defaultMaxField) w.c.maxPrio with localInit := true } :=
            put_strm _ _ _ _
          dsimp only at hs
          rw [this] at hs
          cases hs
          have hty : (Strm.new i true (w.c.maxField.getD defaultMaxField) w.c.maxPrio).ty = some t := hty
          cases hb : isBidi i with
          | true => rw [(new_bidi hb _ _ _).1] at hty; cases hty; cases tc
          | false => rw [(new_uni hb _ _ _).1] at hty; cases hty
        · have : (w.c.request id).streams i = w.c.streams i := upd_other _ _ hi
          dsimp only at hs
          rw [this] at hs
          have := e.entry i s hs t tc hty
          cases t <;> exact this
      · by_cases hj : j = id
        · subst hj
          have : (w.c.request j).rx j = {} := put_rx _ _ _ _
          dsimp only
          rw [this]
          exact typed_nil rfl
        · have : (w.c.request id).rx j = w.c.rx j := upd_other _ _ hj
          dsimp only
          rw [this]
          exact (e.typed j hb).mono (fun t i e => by cases t <;> exact e) rfl (fun e => e)
    · exact e
  | finishLocal id =>
    simp only [W.step]
    split
    · unfold C.finishLocal
      split
      · exact e
      rename_i s hs
      split
      · exact fun hn => et_same (tr_remove h.dead) rfl (e hn) hn
      · exact fun hn => et_same (tr_setStrm (res := none) h.dead plain_none hs rfl) rfl (e hn) hn
    · exact e
  | takePrio id =>
    simp only [W.step]
    unfold C.takePrio
    split
    · exact e
    rename_i s hs
    exact fun hn => et_same (tr_setStrm (res := none) h.dead plain_none hs rfl) rfl (e hn) hn
  | poll spare rs =>
    exact (poll_et h (fun i hi => (List.mem_filter.mp hi).2) e rfl).2
  | body spare id n =>
    simp only [W.step]
    split
    · rename_i hu
      exact (recvBody_et hu h e rfl).2
    · exact e

/-- The result of a call. -/
def W.res (w : W) : Act → Option Res
  | .poll spare rs => some (w.c.poll spare (rs.filter w.used)).1
  | .body spare id n => if w.used id then some (bodyRes id (w.c.recvBody spare id n).1.1) else none
  | _ => none

/-- What an action does to the connection. -/
theorem step_tr {w : W} (h : w.Inv cf) (e : w.c.localErr = none → ET w.c) (a : Act) :
    Tr w.c (w.res a) (w.step a).c := by
  have hsame : Tr w.c none w.c := .same h.dead plain_none
  cases a with
  | opened id =>
    simp only [W.step]
    split
    · exact tr_setRx h.dead plain_none
    · exact hsame
  | arrive id bs fin =>
    simp only [W.step]
    split
    · exact tr_setRx h.dead plain_none
    · exact hsame
  | reset id code =>
    simp only [W.step]
    split
    · exact tr_setRx h.dead plain_none
    · exact hsame
  | sent id =>
    simp only [W.step]
    split
    · exact tr_setRx h.dead plain_none
    · exact hsame
  | request id =>
    simp only [W.step]
    split
    · refine .plain h.dead plain_none rfl rfl rfl rfl rfl rfl (fun t => by cases t <;> rfl) fun i s hs => ?_
      by_cases hi : i = id
      · subst hi
        have : (w.c.request i).streams i = some { Strm.new i true (w.c.maxField.getD defaultMaxField) w.c.maxPrio with localInit := true } :=
          put_strm _ _ _ _
        dsimp only at hs
        rw [this] at hs
        cases hs
        refine .inr fun t hty => ?_
        have hty : (Strm.new i true (w.c.maxField.getD defaultMaxField) w.c.maxPrio).ty = some t := hty
        cases hb : isBidi i with
        | true => rw [(new_bidi hb _ _ _).1] at hty; cases hty; rfl
        | false => rw [(new_uni hb _ _ _).1] at hty; cases hty
      · have : (w.c.request id).streams i = w.c.streams i := upd_other _ _ hi
        dsimp only at hs
        rw [this] at hs
        exact .inl ⟨s, hs, rfl⟩
    · exact hsame
  | finishLocal id =>
    simp only [W.step]
    split
    · unfold C.finishLocal
      split
      · exact hsame
      rename_i s hs
      split
      · exact tr_remove h.dead
      · exact tr_setStrm h.dead plain_none hs rfl
    · exact hsame
  | takePrio id =>
    simp only [W.step]
    unfold C.takePrio
    split
    · exact hsame
    rename_i s hs
    exact tr_setStrm h.dead plain_none hs rfl
  | poll spare rs =>
    exact (poll_et h (fun i hi => (List.mem_filter.mp hi).2) e rfl).1
  | body spare id n =>
    simp only [W.step, W.res]
    split
    · rename_i hu
      exact (recvBody_et hu h e rfl).1
    · exact hsame

theorem run_et {w : W} (h : w.Inv cf) (e : w.c.localErr = none → ET w.c) (l : List Act) :
    (w.run l).c.localErr = none → ET (w.run l).c := by
  unfold W.run
  induction l generalizing w with
  | nil => exact e
  | cons a l ih => exact ih (step_inv h a) (step_et h e a)

/-- Roles do not change; a connection that is closed stays so. -/
theorem run_role {w : W} (h : w.Inv cf) (e : w.c.localErr = none → ET w.c) (l : List Act) :
    (∀ t i, w.c.role t = some i → (w.run l).c.role t = some i) ∧
      (w.c.localErr.isSome = true → (w.run l).c.localErr = w.c.localErr) := by
  unfold W.run
  induction l generalizing w with
  | nil => exact ⟨fun _ _ e => e, fun _ => rfl⟩
  | cons a l ih =>
    have ht := step_tr h e a
    obtain ⟨q1, q2⟩ := ih (step_inv h a) (step_et h e a)
    refine ⟨fun t i hr => q1 t i (ht.role t i hr), fun hs => ?_⟩
    have h1 := ht.lerr hs
    have h2 := q2 (by rw [h1]; exact hs)
    exact h2.trans h1

theorem initial_et {w : W} (h : w.Initial) : ET w.c := by
  obtain ⟨⟨h1, h2, _⟩, _⟩ := h
  refine ⟨fun i s hs => ?_, fun id _ => ?_⟩
  · rw [h1 i] at hs; cases hs
  · rw [h2 id]; exact typed_nil rfl

end Verif.H3
