import Verif.Conn.Setup
import Verif.Props.C37

/-!
C179: what an endpoint announces is what it does: settings made during the handshake, and the
parameters of the peer.
-/

namespace Verif.Props.C179
open Verif Verif.Tp Verif.Setup

/-! ### Specification -/

/-- The setting made last. -/
def lastOf {α : Type} (f : Set → Option α) : List Act → α → α
  | [], a => a
  | .write :: l, a => lastOf f l a
  | .set s :: l, a => lastOf f l ((f s).getD a)

def ccOf : Set → Option Nat | .cc v => some v | _ => none
def bbrOf : Set → Option (Option Nat) | .bbr v => some (some v) | _ => none
def windowOf : Set → Option Nat | .window v => some v | _ => none
def relaxedOf : Set → Option Bool | .relaxed v => some v | _ => none
def idleFixOf : Set → Option Bool | .idleFix v => some v | _ => none
def hystartOf : Set → Option Bool | .hystart v => some v | _ => none
def pacingOf : Set → Option Bool | .pacing v => some v | _ => none
def maxRateOf : Set → Option (Option Nat) | .maxRate v => some v | _ => none
def maxSendOf : Set → Option Nat | .maxSend v => some v | _ => none
def factorOf : Set → Option Nat | .factor v => some v | _ => none
def pmtuOf : Set → Option (Option (Bool × Nat)) | .pmtu d n => some (some (d, n)) | _ => none
def idleOf : Set → Option Nat | .idle v => some v | _ => none
def streamsOf : Set → Option Nat | .streams v => some v | _ => none

/-- Settings of transport parameters. -/
def param : Set → Bool
  | .idle _ => true
  | .streams _ => true
  | _ => false

/-- No transport parameter is set after the parameters were written. -/
def Orderly : Bool → List Act → Prop
  | _, [] => True
  | _, .write :: l => Orderly true l
  | w, .set s :: l => (param s = true → w = false) ∧ Orderly w l

/-- The parameters can be encoded. -/
def Fits (isServer : Bool) : Params → List Act → Prop
  | _, [] => True
  | p, .set (.idle v) :: l =>
    (∃ b, setParams { p with maxIdleTimeout := v } isServer = .ok b) ∧ Fits isServer { p with maxIdleTimeout := v } l
  | p, .set (.streams v) :: l =>
    (∃ b, setParams { p with maxStreamsBidi := v } isServer = .ok b) ∧ Fits isServer { p with maxStreamsBidi := v } l
  | p, _ :: l => Fits isServer p l

/-- A call in which transport parameters are set properly, if at all. -/
def Proper (c : C) (t : Tls) : Prop :=
  (∃ s, Act.set s ∈ t.acts ∧ param s = true) →
    t.out = .done ∧ c.completed = false ∧ c.rcv.inFlight = 0 ∧ c.rcv.duration = 0 ∧
      Orderly c.sent.isSome t.acts ∧ Fits c.ids.isServer c.loc t.acts

def ProperOp (c : C) : Op → Prop
  | .call t => Proper c t
  | .first _ => c.sent = none
  | .idle _ => c.sent = none
  | _ => True

def ProperRun : X → List Op → Prop
  | _, [] => True
  | x, op :: l => ProperOp x.c op ∧ ProperRun (x.step op) l

/-- The state of a new connection (lib.rs:1961-2250). -/
structure New (c : C) : Prop where
  tls : setParams c.loc c.ids.isServer = .ok c.tls
  sent : c.sent = none
  bidi : c.bidi = c.loc.maxStreamsBidi
  rcv : c.rcv = Rec.new c.rc
  parsed : c.parsed = false
  completed : c.completed = false
  confirmed : c.confirmed = false
  hsKeys : c.hsKeys = true

/-! ### The callbacks -/

theorem params_some {e e' : Ex} {s : Bool} {p : Params} (h : e.params s p = some e') :
    e'.loc = p ∧ e'.rc = e.rc ∧ e'.factor = e.factor ∧ e'.pmtu = e.pmtu ∧ e'.sent = e.sent ∧
      (∀ b, setParams p s = .ok b → e'.tls = b) := by
  unfold Ex.params at h
  split at h
  next b hb => cases h; exact ⟨rfl, rfl, rfl, rfl, rfl, fun _ h => Except.ok.inj (hb.symm.trans h)⟩
  · cases h
  next he => cases h; exact ⟨rfl, rfl, rfl, rfl, rfl, fun _ h => by rw [h] at he; cases he⟩

theorem acts_last {s : Bool} (l : List Act) : ∀ {e e' : Ex}, e.acts s l = some e' →
    e'.rc = { e.rc with
      cc := lastOf ccOf l e.rc.cc
      bbr := lastOf bbrOf l e.rc.bbr
      window := lastOf windowOf l e.rc.window
      relaxed := lastOf relaxedOf l e.rc.relaxed
      idleFix := lastOf idleFixOf l e.rc.idleFix
      hystart := lastOf hystartOf l e.rc.hystart
      pacing := lastOf pacingOf l e.rc.pacing
      maxRate := lastOf maxRateOf l e.rc.maxRate
      maxSend := lastOf maxSendOf l e.rc.maxSend } ∧
    e'.factor = lastOf factorOf l e.factor ∧ e'.pmtu = lastOf pmtuOf l e.pmtu ∧
    e'.loc = { e.loc with
      maxIdleTimeout := lastOf idleOf l e.loc.maxIdleTimeout
      maxStreamsBidi := lastOf streamsOf l e.loc.maxStreamsBidi } := by
  induction l with
  | nil => intro e e' h; cases h; exact ⟨rfl, rfl, rfl, rfl⟩
  | cons a l ih =>
    intro e e' h
    cases a with
    | write => exact ih (e := { e with sent := some e.tls }) h
    | set x =>
      simp only [Ex.acts] at h
      split at h
      · cases h
      next e1 he =>
        have := ih h
        cases x with
        | idle v =>
          obtain ⟨h1, h2, h3, h4, _⟩ := params_some he
          rw [h1, h2, h3, h4] at this
          exact this
        | streams v =>
          obtain ⟨h1, h2, h3, h4, _⟩ := params_some he
          rw [h1, h2, h3, h4] at this
          exact this
        | _ => cases he; exact this

theorem acts_plain {s : Bool} (l : List Act) : ∀ {e e' : Ex}, e.acts s l = some e' →
    (∀ x, Act.set x ∈ l → param x = false) → e'.tls = e.tls ∧ (e'.sent = e.sent ∨ e'.sent = some e.tls) := by
  induction l with
  | nil => intro e e' h _; cases h; exact ⟨rfl, Or.inl rfl⟩
  | cons a l ih =>
    intro e e' h hp
    have hp' : ∀ x, Act.set x ∈ l → param x = false := fun x hx => hp x (List.mem_cons_of_mem _ hx)
    cases a with
    | write =>
      obtain ⟨h1, h2⟩ := ih h hp'
      refine ⟨h1, Or.inr ?_⟩
      rcases h2 with h2 | h2 <;> exact h2
    | set x =>
      have hx := hp x (List.mem_cons_self ..)
      simp only [Ex.acts] at h
      split at h
      · cases h
      next e1 he =>
        have := ih h hp'
        cases x <;> first | (cases he; exact this) | (cases hx)

/-- The TLS library has the parameters that are local, and has written them. -/
def Same (s : Bool) (loc : Params) (tls : Bytes) (sent : Option Bytes) : Prop :=
  setParams loc s = .ok tls ∧ ∀ b, sent = some b → b = tls

theorem acts_proper {s : Bool} (l : List Act) : ∀ {e e' : Ex}, e.acts s l = some e' → Same s e.loc e.tls e.sent →
    Orderly e.sent.isSome l → Fits s e.loc l → Same s e'.loc e'.tls e'.sent := by
  induction l with
  | nil => intro e e' h hs _ _; cases h; exact hs
  | cons a l ih =>
    intro e e' h hs ho hf
    cases a with
    | write =>
      refine ih h ⟨hs.1, ?_⟩ ho hf
      intro b hb
      exact (Option.some.inj hb).symm
    | set x =>
      simp only [Ex.acts] at h
      split at h
      · cases h
      next e1 he =>
        cases x with
        | idle v =>
          obtain ⟨h1, _, _, _, h5, h6⟩ := params_some he
          obtain ⟨⟨b, hb⟩, hf⟩ := hf
          have hn : e.sent.isSome = false := ho.1 rfl
          refine ih h ⟨?_, ?_⟩ (by rw [h5]; exact ho.2) (by rw [h1]; exact hf)
          · rw [h1, h6 b hb]; exact hb
          · intro b' hb'; rw [h5] at hb'; rw [hb'] at hn; cases hn
        | streams v =>
          obtain ⟨h1, _, _, _, h5, h6⟩ := params_some he
          obtain ⟨⟨b, hb⟩, hf⟩ := hf
          have hn : e.sent.isSome = false := ho.1 rfl
          refine ih h ⟨?_, ?_⟩ (by rw [h5]; exact ho.2) (by rw [h1]; exact hf)
          · rw [h1, h6 b hb]; exact hb
          · intro b' hb'; rw [h5] at hb'; rw [hb'] at hn; cases hn
        | _ => cases he; exact ih h hs ho.2 hf

/-! ### One call -/

theorem parse_cases (c : C) (raw : Bytes) :
    (∃ e, c.parse raw = (.error (.tp e), c) ∧ c.parsed = false) ∨
    (c.parse raw = (.ok (), c) ∧ (c.parsed = true ∨ raw = [])) ∨
    (∃ tp, c.parse raw = (.ok (), c.process tp) ∧ c.parsed = false ∧ raw ≠ [] ∧
      decode raw c.ids.isServer c.track = .ok tp ∧ authenticate c.ids tp = true) := by
  unfold C.parse
  by_cases hp : c.parsed = true
  · rw [if_pos hp]; exact Or.inr (Or.inl ⟨rfl, Or.inl hp⟩)
  · rw [if_neg hp]
    have hp' : c.parsed = false := by simpa using hp
    unfold peerParams
    by_cases hr : raw.isEmpty = true
    · rw [if_pos hr]; exact Or.inr (Or.inl ⟨rfl, Or.inr (List.isEmpty_iff.mp hr)⟩)
    · rw [if_neg hr]
      cases hd : decode raw c.ids.isServer c.track with
      | error e => exact Or.inl ⟨e, rfl, hp'⟩
      | ok tp =>
        simp only
        by_cases ha : authenticate c.ids tp = true
        · rw [if_pos ha]
          exact Or.inr (Or.inr ⟨tp, rfl, hp', fun h => hr (by rw [h]; rfl), rfl, ha⟩)
        · rw [if_neg ha]; exact Or.inl ⟨_, rfl, hp'⟩

/-- What a call does not touch when the parameters of the peer are read. -/
theorem parse_keep (c : C) (raw : Bytes) :
    (c.parse raw).2.loc = c.loc ∧ (c.parse raw).2.tls = c.tls ∧ (c.parse raw).2.sent = c.sent ∧ (c.parse raw).2.bidi = c.bidi ∧
    (c.parse raw).2.ids = c.ids ∧ (c.parse raw).2.factor = c.factor ∧ (c.parse raw).2.pmtud = c.pmtud ∧
    (c.parse raw).2.completed = c.completed ∧ (c.parse raw).2.confirmed = c.confirmed ∧ (c.parse raw).2.hsKeys = c.hsKeys ∧
    (c.parse raw).2.rcv.inFlight = c.rcv.inFlight ∧ (c.parse raw).2.rcv.duration = c.rcv.duration ∧
    (c.parse raw).2.rcv.rc = c.rcv.rc ∧ { (c.parse raw).2.rc with maxAckDelay := 0 } = { c.rc with maxAckDelay := 0 } ∧
    (c.parse raw).2.track = c.track ∧ (c.parse raw).2.early = c.early := by
  rcases parse_cases c raw with ⟨e, h, _⟩ | ⟨h, _⟩ | ⟨tp, h, _⟩
  · rw [h]; simp
  · rw [h]; simp
  · rw [h]
    refine ⟨rfl, rfl, rfl, rfl, rfl, rfl, rfl, rfl, rfl, rfl, ?_, ?_, ?_, rfl, rfl, rfl⟩
    all_goals
      unfold C.process
      simp only
      split
      · split <;> rfl
      · rfl

/-- The settings are taken over, if nothing was in flight. -/
theorem adopt_spec (c : C) (e : Ex) (hb : c.bidi = c.loc.maxStreamsBidi) (h0 : c.rcv.inFlight = 0) (h1 : c.rcv.duration = 0) :
    (c.adopt e).rc = e.rc ∧ (c.adopt e).factor = e.factor ∧ (c.adopt e).loc = e.loc ∧
    (c.adopt e).bidi = e.loc.maxStreamsBidi ∧ (c.adopt e).rcv = (if e.rc = c.rc then c.rcv else Rec.new e.rc) ∧
    (c.adopt e).pmtud = (match e.pmtu with
      | none => c.pmtud
      | some (d, n) => if d then some (Pmtud.new e.rc.maxSend n) else none) := by
  unfold C.adopt
  rw [if_pos ⟨h0, h1⟩]
  by_cases hr : e.rc = c.rc <;> by_cases hl : e.loc = c.loc <;> cases hp : e.pmtu <;>
    simp_all

/-- What is untouched by taking over settings. -/
theorem adopt_keep (c : C) (e : Ex) :
    (c.adopt e).ids = c.ids ∧ (c.adopt e).tls = c.tls ∧ (c.adopt e).sent = c.sent ∧ (c.adopt e).parsed = c.parsed ∧
    (c.adopt e).peer = c.peer ∧ (c.adopt e).completed = c.completed ∧ (c.adopt e).confirmed = c.confirmed ∧
    (c.adopt e).hsKeys = c.hsKeys ∧ (c.adopt e).track = c.track ∧ (c.adopt e).early = c.early ∧
    (¬ (c.rcv.inFlight = 0 ∧ c.rcv.duration = 0) → c.adopt e = c) := by
  unfold C.adopt
  by_cases h : c.rcv.inFlight = 0 ∧ c.rcv.duration = 0
  · rw [if_pos h]
    by_cases hr : e.rc = c.rc <;> by_cases hl : e.loc = c.loc <;> cases hp : e.pmtu <;> simp [hr, hl, h]
  · rw [if_neg h]
    simp

/-- The results of a call. -/
theorem handshake_cases (c : C) (t : Tls) :
    (c.ex.acts c.ids.isServer t.acts = none ∧ c.handshake t = (.error (.tp .panic), c)) ∨
    ∃ e c1, c.ex.acts c.ids.isServer t.acts = some e ∧ c1 = { c with tls := e.tls, sent := e.sent } ∧
      ((c.completed = true ∧ (c.handshake t).2 = c1) ∨
       (c.completed = false ∧ t.out = .fail ∧ c.handshake t = (.error .tls, c1)) ∨
       (c.completed = false ∧ t.out = .done ∧ c.handshake t = (c1.adopt e).parse t.raw) ∨
       (c.completed = false ∧ t.out = .ok ∧ ∃ c2, c2 = { c1 with completed := t.completed, alpn := t.alpn } ∧
        ((∃ er, c2.parse t.raw = (.error er, c2) ∧ c.handshake t = (.error er, c2)) ∨
         (∃ c3, c2.parse t.raw = (.ok (), c3) ∧ c.handshake t = (.ok (), if c3.completed then
            { c3 with confirmed := c3.confirmed || c3.ids.isServer, hsKeys := c3.hsKeys && !c3.ids.isServer, early := [] }
            else c3))))) := by
  unfold C.handshake
  cases h : c.ex.acts c.ids.isServer t.acts with
  | none => exact Or.inl ⟨rfl, rfl⟩
  | some e =>
    right
    refine ⟨e, _, rfl, rfl, ?_⟩
    simp only
    by_cases hc : c.completed = true
    · left
      rw [if_pos hc]
      refine ⟨hc, ?_⟩
      cases t.out <;> rfl
    · right
      rw [if_neg hc]
      have hc' : c.completed = false := by simpa using hc
      cases ho : t.out with
      | fail => exact Or.inl ⟨hc', rfl, rfl⟩
      | done => exact Or.inr (Or.inl ⟨hc', rfl, rfl⟩)
      | ok =>
        refine Or.inr (Or.inr ⟨hc', rfl, _, rfl, ?_⟩)
        rcases parse_cases { c with tls := e.tls, sent := e.sent, completed := t.completed, alpn := t.alpn } t.raw with
          ⟨er, hp, _⟩ | ⟨hp, _⟩ | ⟨tp, hp, _⟩
        · left; refine ⟨_, hp, ?_⟩; rw [hp]
        · right; refine ⟨_, hp, ?_⟩; rw [hp]
        · right; refine ⟨_, hp, ?_⟩; rw [hp]

theorem lastOf_none {α : Type} {f : Set → Option α} (l : List Act) : ∀ (a : α), (∀ x, Act.set x ∈ l → f x = none) → lastOf f l a = a := by
  induction l with
  | nil => intro a _; rfl
  | cons b l ih =>
    intro a h
    have h' : ∀ x, Act.set x ∈ l → f x = none := fun x hx => h x (List.mem_cons_of_mem _ hx)
    cases b with
    | write => exact ih a h'
    | set x =>
      have := h x (List.mem_cons_self ..)
      simp only [lastOf, this]
      exact ih a h'

theorem put_dead {r : Except Setup.Err Unit × C} (h : (X.put r).dead = false) :
    (r.1 = .ok () ∨ r.1 = .error .done) ∧ (X.put r).c = r.2 := by
  rcases r with ⟨a, c⟩
  cases a with
  | ok u => exact ⟨Or.inl rfl, rfl⟩
  | error e => cases e <;> first | exact ⟨Or.inr rfl, rfl⟩ | cases h

theorem put_c (r : Except Setup.Err Unit × C) : (X.put r).c = r.2 := by
  rcases r with ⟨a, c⟩
  cases a with
  | ok u => rfl
  | error e => cases e <;> rfl

/-! ### What was announced is in force -/

structure Agree (c : C) : Prop where
  same : Same c.ids.isServer c.loc c.tls c.sent
  bidi : c.bidi = c.loc.maxStreamsBidi

theorem Agree.of {c c' : C} (h : Agree c) (h1 : c'.ids = c.ids) (h2 : c'.loc = c.loc) (h3 : c'.tls = c.tls)
    (h4 : c'.sent = c.sent ∨ c'.sent = some c.tls) (h5 : c'.bidi = c.bidi) : Agree c' := by
  refine ⟨⟨by rw [h1, h2, h3]; exact h.same.1, ?_⟩, by rw [h5, h2]; exact h.bidi⟩
  intro b hb
  rw [h3]
  rcases h4 with h4 | h4 <;> rw [h4] at hb
  · exact h.same.2 b hb
  · exact (Option.some.inj hb).symm

theorem agree_call {c : C} (h : Agree c) {t : Tls} (hp : Proper c t) (hd : (X.put (c.handshake t)).dead = false) :
    Agree (c.handshake t).2 := by
  obtain ⟨hd, _⟩ := put_dead hd
  rcases handshake_cases c t with ⟨_, hh⟩ | ⟨e, c1, he, rfl, hh⟩
  · rw [hh] at hd; rcases hd with hd | hd <;> cases hd
  by_cases hs : ∃ s, Act.set s ∈ t.acts ∧ param s = true
  · obtain ⟨ho, hc, h0, h1, hord, hfit⟩ := hp hs
    have hsame := acts_proper t.acts he h.same hord hfit
    rcases hh with ⟨hc', _⟩ | ⟨_, ho', _⟩ | ⟨_, _, hh⟩ | ⟨_, ho', _⟩
    · rw [hc] at hc'; cases hc'
    · rw [ho] at ho'; cases ho'
    · rw [hh]
      obtain ⟨k1, k2, k3, k4, k5, _⟩ := parse_keep (C.adopt { c with tls := e.tls, sent := e.sent } e) t.raw
      obtain ⟨a1, a2, a3, a4, _⟩ := adopt_spec { c with tls := e.tls, sent := e.sent } e h.bidi h0 h1
      obtain ⟨b1, b2, b3, _⟩ := adopt_keep { c with tls := e.tls, sent := e.sent } e
      refine ⟨?_, by rw [k4, k1, a4, a3]⟩
      rw [k5, k1, k2, k3, b1, b2, b3, a3]
      exact hsame
    · rw [ho] at ho'; cases ho'
  · have hn : ∀ x, Act.set x ∈ t.acts → param x = false := by
      intro x hx
      cases hp : param x with
      | false => rfl
      | true => exact absurd ⟨x, hx, hp⟩ hs
    obtain ⟨p1, p2⟩ := acts_plain t.acts he hn
    obtain ⟨_, _, _, hloc⟩ := acts_last t.acts he
    rw [lastOf_none t.acts, lastOf_none t.acts] at hloc
    · have hloc' : e.loc = c.loc := hloc
      have p1' : e.tls = c.tls := p1
      have p2' : e.sent = c.sent ∨ e.sent = some c.tls := p2
      rcases hh with ⟨_, hh⟩ | ⟨_, _, hh⟩ | ⟨_, _, hh⟩ | ⟨_, _, c2, rfl, hh⟩
      · rw [hh]; exact h.of rfl rfl p1' p2' rfl
      · rw [hh]; exact h.of rfl rfl p1' p2' rfl
      · rw [hh]
        obtain ⟨k1, k2, k3, k4, k5, _⟩ := parse_keep (C.adopt { c with tls := e.tls, sent := e.sent } e) t.raw
        by_cases hz : c.rcv.inFlight = 0 ∧ c.rcv.duration = 0
        · obtain ⟨a1, a2, a3, a4, _⟩ := adopt_spec { c with tls := e.tls, sent := e.sent } e h.bidi hz.1 hz.2
          obtain ⟨b1, b2, b3, _⟩ := adopt_keep { c with tls := e.tls, sent := e.sent } e
          exact h.of (k5.trans b1) ((k1.trans a3).trans hloc') ((k2.trans b2).trans p1')
            (by rw [k3, b3]; exact p2') ((k4.trans a4).trans (by rw [hloc']; exact h.bidi.symm))
        · have := (adopt_keep { c with tls := e.tls, sent := e.sent } e).2.2.2.2.2.2.2.2.2.2 hz
          rw [this] at k1 k2 k3 k4 k5 ⊢
          exact h.of k5 k1 (k2.trans p1') (by rw [k3]; exact p2') k4
      · obtain ⟨k1, k2, k3, k4, k5, _⟩ := parse_keep { c with tls := e.tls, sent := e.sent, completed := t.completed, alpn := t.alpn } t.raw
        rcases hh with ⟨er, _, hh⟩ | ⟨c3, hq, hh⟩
        · rw [hh]; exact h.of rfl rfl p1' p2' rfl
        · rw [hq] at k1 k2 k3 k4 k5
          rw [hh]
          simp only
          have : Agree c3 := h.of k5 k1 (k2.trans p1') (by rw [show c3.sent = e.sent from k3]; exact p2') k4
          split
          · exact this.of rfl rfl rfl (Or.inl rfl) rfl
          · exact this
    · intro x hx; have := hn x hx; cases x <;> first | rfl | cases this
    · intro x hx; have := hn x hx; cases x <;> first | rfl | cases this

theorem encode_agree {c : C} (hs : ∀ b, c.sent = some b → setParams c.loc c.ids.isServer = .ok b) (hb : c.bidi = c.loc.maxStreamsBidi)
    (hd : (X.put c.encode).dead = false) : Agree c.encode.2 := by
  obtain ⟨hd, _⟩ := put_dead hd
  unfold C.encode at hd ⊢
  split at hd
  next b hb' =>
    refine ⟨⟨hb', ?_⟩, hb⟩
    intro b2 hb2
    have := hs b2 hb2
    rw [hb'] at this
    exact (Except.ok.inj this).symm
  · rcases hd with hd | hd <;> cases hd

theorem dead_step {x : X} {op : Op} (h : (x.step op).dead = false) : x.dead = false := by
  cases hd : x.dead with
  | false => rfl
  | true => unfold X.step at h; rw [if_pos hd, hd] at h; exact h

theorem agree_step {x : X} {op : Op} (h : Agree x.c) (hp : ProperOp x.c op) (hd : (x.step op).dead = false) : Agree (x.step op).c := by
  have hx : ¬ x.dead = true := by rw [dead_step hd]; simp
  unfold X.step at hd ⊢
  rw [if_neg hx] at hd ⊢
  cases op with
  | call t => simp only at hd ⊢; rw [put_c]; exact agree_call h hp hd
  | flight n d => exact h.of rfl rfl rfl (Or.inl rfl) rfl
  | keep b => exact h.of rfl rfl rfl (Or.inl rfl) rfl
  | first d =>
    simp only at hd ⊢; rw [put_c]
    exact encode_agree (fun b hb => by rw [show x.c.sent = none from hp] at hb; cases hb) h.bidi hd
  | again =>
    simp only at hd ⊢; rw [put_c]
    exact encode_agree (fun b hb => by cases hb) h.bidi hd
  | idle v =>
    simp only at hd ⊢; rw [put_c]
    exact encode_agree (fun b hb => by rw [show x.c.sent = none from hp] at hb; cases hb) h.bidi hd

theorem dead_run (l : List Op) : ∀ {x : X}, (x.run l).dead = false → x.dead = false := by
  induction l with
  | nil => intro x h; exact h
  | cons op l ih => intro x h; exact dead_step (ih h)

theorem agree_run (l : List Op) : ∀ {x : X}, Agree x.c → ProperRun x l → (x.run l).dead = false → Agree (x.run l).c := by
  induction l with
  | nil => intro x h _ _; exact h
  | cons op l ih =>
    intro x h hp hd
    exact ih (agree_step h hp.1 (dead_run l hd)) hp.2 hd

/-- **C179 announced_partial**: if transport parameters are only set in calls of the TLS library that do not
finish, before they are written and before anything is in flight, and can be encoded, then what was
written into the handshake is what the connection goes by; it accepts as many streams as it says, and
the peer learns that number and the idle timeout. *Missing*: this for other calls (`early_false`, `late_false`,
`short_false`, `panic_false`). -/
theorem announced_partial {c : C} (hn : New c) (l : List Op) (hp : ProperRun { c := c } l) (hd : (X.run { c := c } l).dead = false)
    {b : Bytes} (hb : (X.run { c := c } l).c.sent = some b) :
    setParams (X.run { c := c } l).c.loc (X.run { c := c } l).c.ids.isServer = .ok b ∧
    (X.run { c := c } l).c.bidi = (X.run { c := c } l).c.loc.maxStreamsBidi ∧
    (C37.Proper (X.run { c := c } l).c.loc → (X.run { c := c } l).c.loc.ackDelayExponent ≠ 0 → (X.run { c := c } l).c.loc.maxAckDelay ≠ 0 →
      ∃ tp, decode b (!(X.run { c := c } l).c.ids.isServer) none = .ok tp ∧ tp.maxStreamsBidi = (X.run { c := c } l).c.bidi ∧
        tp.maxIdleTimeout = (X.run { c := c } l).c.loc.maxIdleTimeout) := by
  have ha := agree_run l (x := { c := c }) ⟨⟨hn.tls, fun b hb => by rw [hn.sent] at hb; cases hb⟩, hn.bidi⟩ hp hd
  have he := ha.same.2 b hb
  have hs : setParams (X.run { c := c } l).c.loc (X.run { c := c } l).c.ids.isServer = .ok b := by rw [he]; exact ha.same.1
  refine ⟨hs, ha.bidi, ?_⟩
  intro h1 h2 h3
  obtain ⟨tp, h4, h5⟩ := C37.round_trip_partial _ _ 128 none b h1 h2 h3 hs
  exact ⟨tp, h4, by rw [h5, ha.bidi], by rw [h5]⟩

/-! ### Settings take effect -/

/-- The recovery of the path was made with the configuration of the connection. -/
def InForce (c : C) : Prop := { c.rcv.rc with maxAckDelay := 0 } = { c.rc with maxAckDelay := 0 }

/-- **C179 applied**: settings made in a call that does not finish, with nothing in flight so far, take effect: of
each the last. -/
theorem applied {c : C} (hi : InForce c) (hb : c.bidi = c.loc.maxStreamsBidi) {t : Tls} (ho : t.out = .done) (hc : c.completed = false)
    (h0 : c.rcv.inFlight = 0) (h1 : c.rcv.duration = 0) {c' : C} (hh : c.handshake t = (.ok (), c')) :
    InForce c' ∧
    c'.rc.cc = lastOf ccOf t.acts c.rc.cc ∧ c'.rc.bbr = lastOf bbrOf t.acts c.rc.bbr ∧
    c'.rc.window = lastOf windowOf t.acts c.rc.window ∧ c'.rc.relaxed = lastOf relaxedOf t.acts c.rc.relaxed ∧
    c'.rc.idleFix = lastOf idleFixOf t.acts c.rc.idleFix ∧ c'.rc.hystart = lastOf hystartOf t.acts c.rc.hystart ∧
    c'.rc.pacing = lastOf pacingOf t.acts c.rc.pacing ∧ c'.rc.maxRate = lastOf maxRateOf t.acts c.rc.maxRate ∧
    c'.rc.maxSend = lastOf maxSendOf t.acts c.rc.maxSend ∧ c'.rc.initialRtt = c.rc.initialRtt ∧
    c'.factor = lastOf factorOf t.acts c.factor ∧
    c'.loc.maxIdleTimeout = lastOf idleOf t.acts c.loc.maxIdleTimeout ∧ c'.bidi = lastOf streamsOf t.acts c.loc.maxStreamsBidi ∧
    c'.pmtud = (match lastOf pmtuOf t.acts none with
      | none => c.pmtud
      | some (d, n) => if d then some (Pmtud.new c'.rc.maxSend n) else none) := by
  rcases handshake_cases c t with ⟨_, hx⟩ | ⟨e, c1, he, rfl, hx⟩
  · rw [hx] at hh; cases hh
  rcases hx with ⟨hc', _⟩ | ⟨_, ho', _⟩ | ⟨_, _, hx⟩ | ⟨_, ho', _⟩
  · rw [hc] at hc'; cases hc'
  · rw [ho] at ho'; cases ho'
  · obtain ⟨l1, l2, l3, l4⟩ := acts_last t.acts he
    obtain ⟨k1, _, _, k4, _, k6, k7, _, _, _, _, _, k13, k14, _, _⟩ := parse_keep (C.adopt { c with tls := e.tls, sent := e.sent } e) t.raw
    obtain ⟨a1, a2, a3, a4, a5, a6⟩ := adopt_spec { c with tls := e.tls, sent := e.sent } e hb h0 h1
    rw [← hx, hh] at k1 k4 k6 k7 k13 k14
    simp only at k1 k4 k6 k7 k13 k14
    rw [a1] at k14
    have hrc : { c'.rc with maxAckDelay := 0 } = ({ e.rc with maxAckDelay := 0 } : Rc) := k14
    have hms : c'.rc.maxSend = e.rc.maxSend := by simpa using congrArg Rc.maxSend hrc
    refine ⟨?_, ?_⟩
    · unfold InForce
      rw [k13, hrc, a5]
      split
      next hr => rw [hr]; exact hi
      · rfl
    · have g : ∀ {α : Type} (p : Rc → α), p { c'.rc with maxAckDelay := 0 } = p { e.rc with maxAckDelay := 0 } := fun p => congrArg p hrc
      refine ⟨(g Rc.cc).trans ?_, (g Rc.bbr).trans ?_, (g Rc.window).trans ?_, (g Rc.relaxed).trans ?_, (g Rc.idleFix).trans ?_,
        (g Rc.hystart).trans ?_, (g Rc.pacing).trans ?_, (g Rc.maxRate).trans ?_, (g Rc.maxSend).trans ?_, (g Rc.initialRtt).trans ?_,
        ?_, ?_, ?_, ?_⟩
      all_goals first
        | (simp only; rw [l1]; rfl)
        | skip
      · rw [k6, a2, l2]; rfl
      · rw [k1, a3, l4]; rfl
      · rw [k4, a4, l4]; rfl
      · rw [k7, a6, hms, l3]; rfl
  · rw [ho] at ho'; cases ho'

/-- **C179 no_effect**: otherwise they change nothing in what the connection does. -/
theorem no_effect {c : C} {t : Tls} (h : t.out ≠ .done ∨ c.completed = true ∨ c.rcv.inFlight ≠ 0 ∨ c.rcv.duration ≠ 0) {c' : C}
    {r : Except Setup.Err Unit} (hh : c.handshake t = (r, c')) :
    { c'.rc with maxAckDelay := 0 } = { c.rc with maxAckDelay := 0 } ∧ c'.rcv.rc = c.rcv.rc ∧ c'.factor = c.factor ∧
    c'.loc = c.loc ∧ c'.bidi = c.bidi ∧ c'.pmtud = c.pmtud := by
  rcases handshake_cases c t with ⟨_, hx⟩ | ⟨e, c1, he, rfl, hx⟩
  · rw [hx] at hh; cases hh; simp
  rcases hx with ⟨_, hx⟩ | ⟨_, _, hx⟩ | ⟨hc, ho, hx⟩ | ⟨_, _, c2, rfl, hx⟩
  · rw [hh] at hx; simp only at hx; subst hx; simp
  · rw [hx] at hh; cases hh; simp
  · have hz : ¬ (c.rcv.inFlight = 0 ∧ c.rcv.duration = 0) := by
      rintro ⟨z0, z1⟩
      rcases h with h | h | h | h
      · exact h ho
      · rw [hc] at h; cases h
      · exact h z0
      · exact h z1
    have := (adopt_keep { c with tls := e.tls, sent := e.sent } e).2.2.2.2.2.2.2.2.2.2 hz
    rw [this] at hx
    obtain ⟨k1, _, _, k4, _, k6, k7, _, _, _, _, _, k13, k14, _, _⟩ := parse_keep { c with tls := e.tls, sent := e.sent } t.raw
    rw [← hx, hh] at k1 k4 k6 k7 k13 k14
    exact ⟨k14, k13, k6, k1, k4, k7⟩
  · obtain ⟨k1, _, _, k4, _, k6, k7, _, _, _, _, _, k13, k14, _, _⟩ :=
      parse_keep { c with tls := e.tls, sent := e.sent, completed := t.completed, alpn := t.alpn } t.raw
    rcases hx with ⟨er, _, hx⟩ | ⟨c3, hq, hx⟩
    · rw [hx] at hh; cases hh; simp
    · rw [hq] at k1 k4 k6 k7 k13 k14
      rw [hx] at hh
      have := (Prod.mk.inj hh).2
      split at this
      · subst this; exact ⟨k14, k13, k6, k1, k4, k7⟩
      · subst this; exact ⟨k14, k13, k6, k1, k4, k7⟩

/-! ### The parameters of the peer -/

theorem step_call {x : X} (hx : x.dead = false) (t : Tls) : x.step (.call t) = X.put (x.c.handshake t) := by
  unfold X.step
  rw [if_neg (by rw [hx]; simp)]

/-- What steps do to the parameters of the peer. -/
theorem peer_step {x : X} (hx : x.dead = false) (op : Op) :
    (x.step op).c.ids = x.c.ids ∧ (x.step op).c.track = x.c.track ∧
    (((x.step op).c.parsed = x.c.parsed ∧ (x.step op).c.peer = x.c.peer ∧
        ((x.step op).dead = false → x.c.parsed = false → x.c.completed = false → ∀ t, op = .call t → t.raw = [])) ∨
      (x.c.parsed = false ∧ x.c.completed = false ∧ (x.step op).c.parsed = true ∧ ∃ t, op = .call t ∧ t.raw ≠ [] ∧
        decode t.raw x.c.ids.isServer x.c.track = .ok (x.step op).c.peer ∧ authenticate x.c.ids (x.step op).c.peer = true)) := by
  cases op with
  | call t =>
    rw [step_call hx, put_c]
    rcases handshake_cases x.c t with ⟨_, hh⟩ | ⟨e, c1, he, rfl, hh⟩
    · rw [hh]
      exact ⟨rfl, rfl, Or.inl ⟨rfl, rfl, fun h => by cases h⟩⟩
    rcases hh with ⟨hc, hh⟩ | ⟨_, _, hh⟩ | ⟨hc, _, hh⟩ | ⟨hc, _, c2, rfl, hh⟩
    · rw [hh]
      exact ⟨rfl, rfl, Or.inl ⟨rfl, rfl, fun _ _ h => by rw [hc] at h; cases h⟩⟩
    · rw [hh]
      exact ⟨rfl, rfl, Or.inl ⟨rfl, rfl, fun h => by cases h⟩⟩
    · obtain ⟨b1, _, _, b4, b5, _, _, _, b9, _⟩ := adopt_keep { x.c with tls := e.tls, sent := e.sent } e
      rcases parse_cases (C.adopt { x.c with tls := e.tls, sent := e.sent } e) t.raw with ⟨er, hp, _⟩ | ⟨hp, hr⟩ | ⟨tp, hp, h1, h2, h3, h4⟩
      · rw [hh, hp]
        exact ⟨b1, b9, Or.inl ⟨b4, b5, fun h => by cases h⟩⟩
      · rw [hh, hp]
        refine ⟨b1, b9, Or.inl ⟨b4, b5, ?_⟩⟩
        intro _ hpa _ t' ht'
        cases ht'
        rcases hr with hr | hr
        · rw [b4] at hr; simp only at hr; rw [hpa] at hr; cases hr
        · exact hr
      · rw [hh, hp]
        rw [b4] at h1
        rw [b1] at h3 h4
        rw [b9] at h3
        exact ⟨b1, b9, Or.inr ⟨h1, hc, rfl, t, rfl, h2, h3, h4⟩⟩
    · rcases parse_cases { x.c with tls := e.tls, sent := e.sent, completed := t.completed, alpn := t.alpn } t.raw with
        ⟨er, hp, _⟩ | ⟨hp, hr⟩ | ⟨tp, hp, h1, h2, h3, h4⟩
      · rcases hh with ⟨er', hq, hh⟩ | ⟨c3, hq, hh⟩
        · rw [hh]
          rw [hp] at hq
          cases hq
          exact ⟨rfl, rfl, Or.inl ⟨rfl, rfl, fun h => by cases h⟩⟩
        · rw [hp] at hq; cases hq
      · rcases hh with ⟨er', hq, hh⟩ | ⟨c3, hq, hh⟩
        · rw [hp] at hq; cases hq
        · rw [hp] at hq
          cases hq
          rw [hh]
          have : ∀ t', Op.call t = Op.call t' → x.c.parsed = false → t'.raw = [] := by
            intro t' ht' hpa
            cases ht'
            rcases hr with hr | hr
            · simp only at hr; rw [hpa] at hr; cases hr
            · exact hr
          simp only
          split
          · exact ⟨rfl, rfl, Or.inl ⟨rfl, rfl, fun _ h _ t' ht' => this t' ht' h⟩⟩
          · exact ⟨rfl, rfl, Or.inl ⟨rfl, rfl, fun _ h _ t' ht' => this t' ht' h⟩⟩
      · rcases hh with ⟨er', hq, hh⟩ | ⟨c3, hq, hh⟩
        · rw [hp] at hq; cases hq
        · rw [hp] at hq
          cases hq
          rw [hh]
          simp only
          split
          · exact ⟨rfl, rfl, Or.inr ⟨h1, hc, rfl, t, rfl, h2, h3, h4⟩⟩
          · exact ⟨rfl, rfl, Or.inr ⟨h1, hc, rfl, t, rfl, h2, h3, h4⟩⟩
  | _ =>
    unfold X.step
    rw [if_neg (by rw [hx]; simp)]
    simp only [put_c, C.encode]
    first
      | exact ⟨trivial, trivial, Or.inl ⟨trivial, trivial, fun _ _ _ t ht => by cases ht⟩⟩
      | (split <;> exact ⟨rfl, rfl, Or.inl ⟨rfl, rfl, fun _ _ _ t ht => by cases ht⟩⟩)

/-- What is known of the parameters of the peer after `l`. -/
structure Known (c : C) (l : List Op) (x : X) : Prop where
  ids : x.c.ids = c.ids
  track : x.c.track = c.track
  first : x.c.parsed = true → ∃ l1 t l2, l = l1 ++ .call t :: l2 ∧ t.raw ≠ [] ∧ (∀ t', Op.call t' ∈ l1 → t'.raw = []) ∧
    decode t.raw c.ids.isServer c.track = .ok x.c.peer ∧ authenticate c.ids x.c.peer = true
  none : x.dead = false → x.c.parsed = false → x.c.completed = false → ∀ t, Op.call t ∈ l → t.raw = []

theorem dead_stays {x : X} (h : x.dead = true) (op : Op) : x.step op = x := by
  unfold X.step
  rw [if_pos h]

theorem completed_step {x : X} (op : Op) (h : x.c.completed = true) : (x.step op).c.completed = true := by
  cases hx : x.dead with
  | true => rw [dead_stays hx]; exact h
  | false =>
    cases op with
    | call t =>
      rw [step_call hx, put_c]
      rcases handshake_cases x.c t with ⟨_, hh⟩ | ⟨e, c1, he, rfl, hh⟩
      · rw [hh]; exact h
      rcases hh with ⟨hc, hh⟩ | ⟨hc, _, hh⟩ | ⟨hc, _, hh⟩ | ⟨hc, _, c2, rfl, hh⟩
      · rw [hh]; exact h
      all_goals rw [hc] at h; cases h
    | _ =>
      unfold X.step
      rw [if_neg (by rw [hx]; simp)]
      simp only [put_c, C.encode]
      first
        | exact h
        | (split <;> exact h)

theorem known_step {c : C} {l : List Op} {x : X} (h : Known c l x) (op : Op) : Known c (l ++ [op]) (x.step op) := by
  cases hx : x.dead with
  | true =>
    rw [dead_stays hx]
    refine ⟨h.ids, h.track, ?_, fun hd => by rw [hx] at hd; cases hd⟩
    intro hp
    obtain ⟨l1, t, l2, h1, h2⟩ := h.first hp
    exact ⟨l1, t, l2 ++ [op], by rw [h1]; simp, h2⟩
  | false =>
    obtain ⟨h1, h2, h3⟩ := peer_step hx op
    rcases h3 with ⟨h3, h4, h5⟩ | ⟨h3, h4, h5, t, h6, h7, h8, h9⟩
    · refine ⟨h1.trans h.ids, h2.trans h.track, ?_, ?_⟩
      · intro hp
        rw [h3] at hp
        rw [h4]
        obtain ⟨l1, t, l2, g1, g2⟩ := h.first hp
        exact ⟨l1, t, l2 ++ [op], by rw [g1]; simp, g2⟩
      · intro hd hp hc t ht
        rw [h3] at hp
        have hc' : x.c.completed = false := by
          cases hq : x.c.completed with
          | false => rfl
          | true => rw [completed_step op hq] at hc; cases hc
        rcases List.mem_append.mp ht with ht | ht
        · exact h.none hx hp hc' t ht
        · exact h5 hd hp hc' t (List.mem_singleton.mp ht).symm
    · refine ⟨h1.trans h.ids, h2.trans h.track, ?_, fun _ hp => by rw [h5] at hp; cases hp⟩
      intro _
      refine ⟨l, t, [], by rw [h6], h7, h.none hx h3 h4, ?_, ?_⟩
      · rw [← h.ids, ← h.track]; exact h8
      · rw [← h.ids]; exact h9

theorem known_run {c : C} (l : List Op) : ∀ {pre : List Op} {x : X}, Known c pre x → Known c (pre ++ l) (x.run l) := by
  induction l with
  | nil => intro pre x h; rw [List.append_nil]; exact h
  | cons op l ih =>
    intro pre x h
    have := ih (known_step h op)
    rw [List.append_assoc] at this
    exact this

/-- **C179 peer**: the parameters of the peer come from the first call after which the TLS library has some; they were decoded and
their connection IDs are right. -/
theorem peer {c : C} (hn : New c) (l : List Op) (hp : (X.run { c := c } l).c.parsed = true) :
    ∃ l1 t l2, l = l1 ++ .call t :: l2 ∧ t.raw ≠ [] ∧ (∀ t', Op.call t' ∈ l1 → t'.raw = []) ∧
      decode t.raw c.ids.isServer c.track = .ok (X.run { c := c } l).c.peer ∧ authenticate c.ids (X.run { c := c } l).c.peer = true := by
  have h0 : Known c [] { c := c } := ⟨rfl, rfl, (fun h => by rw [show c.parsed = false from hn.parsed] at h; cases h), (fun _ _ _ t ht => by cases ht)⟩
  have := known_run l h0
  exact this.first hp

/-- **C179 fixed**: they do not change any more. -/
theorem fixed (l : List Op) : ∀ {x : X}, x.c.parsed = true → (x.run l).c.parsed = true ∧ (x.run l).c.peer = x.c.peer := by
  induction l with
  | nil => intro x h; exact ⟨h, rfl⟩
  | cons op l ih =>
    intro x h
    have hs : (x.step op).c.parsed = true ∧ (x.step op).c.peer = x.c.peer := by
      cases hx : x.dead with
      | true => rw [dead_stays hx]; exact ⟨h, rfl⟩
      | false =>
        rcases (peer_step hx op).2.2 with ⟨h3, h4, _⟩ | ⟨h3, _⟩
        · exact ⟨h3.trans h, h4⟩
        · rw [h] at h3; cases h3
    obtain ⟨g1, g2⟩ := ih hs.1
    exact ⟨g1, g2.trans hs.2⟩

/-- **C179 at_once**: they are used as soon as they are there, before the handshake is complete; or the connection ends. -/
theorem at_once {x : X} (hx : x.dead = false) (hc : x.c.completed = false) {t : Tls} (hr : t.raw ≠ []) :
    (x.step (.call t)).dead = true ∨ (x.step (.call t)).c.parsed = true := by
  rcases (peer_step hx (.call t)).2.2 with ⟨h3, _, h5⟩ | ⟨_, _, h5, _⟩
  · cases hd : (x.step (.call t)).dead with
    | true => exact Or.inl rfl
    | false =>
      right
      rw [h3]
      cases hp : x.c.parsed with
      | true => rfl
      | false => exact absurd (h5 hd hp hc t rfl) hr
  · exact Or.inr h5

/-! ### The end of the handshake -/

/-- **C179 confirmed**: a server regards the handshake as confirmed and drops the keys for Handshake packets exactly when it is
complete; a client does neither for that. -/
structure Conf (c : C) : Prop where
  confirmed : c.confirmed = (c.completed && c.ids.isServer)
  hsKeys : c.hsKeys = !(c.completed && c.ids.isServer)

theorem Conf.of {c c' : C} (h : Conf c) (h1 : c'.completed = c.completed) (h2 : c'.ids = c.ids) (h3 : c'.confirmed = c.confirmed)
    (h4 : c'.hsKeys = c.hsKeys) : Conf c' :=
  ⟨by rw [h3, h1, h2]; exact h.confirmed, by rw [h4, h1, h2]; exact h.hsKeys⟩

theorem conf_step {x : X} (h : Conf x.c) (op : Op) (hd : (x.step op).dead = false) :
    Conf (x.step op).c ∧ (x.c.completed = false → (x.step op).c.completed = true → (x.step op).c.early = []) := by
  have hx := dead_step hd
  cases op with
  | call t =>
    rw [step_call hx] at hd
    rw [step_call hx, put_c]
    obtain ⟨hd, _⟩ := put_dead hd
    rcases handshake_cases x.c t with ⟨_, hh⟩ | ⟨e, c1, he, rfl, hh⟩
    · rw [hh] at hd; rcases hd with hd | hd <;> cases hd
    rcases hh with ⟨hc, hh⟩ | ⟨_, _, hh⟩ | ⟨hc, _, hh⟩ | ⟨hc, _, c2, rfl, hh⟩
    · rw [hh]
      exact ⟨h.of rfl rfl rfl rfl, fun h0 => by rw [hc] at h0; cases h0⟩
    · rw [hh] at hd; rcases hd with hd | hd <;> cases hd
    · rw [hh]
      obtain ⟨b1, _, _, _, _, b6, b7, b8, _⟩ := adopt_keep { x.c with tls := e.tls, sent := e.sent } e
      obtain ⟨_, _, _, _, k5, _, _, k8, k9, k10, _⟩ := parse_keep (C.adopt { x.c with tls := e.tls, sent := e.sent } e) t.raw
      refine ⟨h.of (k8.trans b6) (k5.trans b1) (k9.trans b7) (k10.trans b8), ?_⟩
      intro _ h1
      rw [k8, b6] at h1
      simp only at h1
      rw [hc] at h1; cases h1
    · obtain ⟨_, _, _, _, k5, _, _, k8, k9, k10, _⟩ :=
        parse_keep { x.c with tls := e.tls, sent := e.sent, completed := t.completed, alpn := t.alpn } t.raw
      rcases hh with ⟨er, hq, hh⟩ | ⟨c3, hq, hh⟩
      · rcases parse_cases { x.c with tls := e.tls, sent := e.sent, completed := t.completed, alpn := t.alpn } t.raw with
          ⟨er', hp, _⟩ | ⟨hp, _⟩ | ⟨tp, hp, _⟩ <;> rw [hp] at hq <;> cases hq
        rw [hh] at hd; rcases hd with hd | hd <;> cases hd
      · rw [hq] at k5 k8 k9 k10
        simp only at k5 k8 k9 k10
        rw [hh]
        have hcf := h.confirmed
        have hhk := h.hsKeys
        rw [hc] at hcf hhk
        simp only [Bool.false_and, Bool.not_false] at hcf hhk
        by_cases hcc : c3.completed = true
        · rw [if_pos hcc]
          refine ⟨⟨?_, ?_⟩, fun _ _ => rfl⟩
          · simp only [k9, hcf, hcc, Bool.false_or, Bool.true_and]
          · simp only [k10, hhk, hcc, Bool.true_and]
        · rw [if_neg hcc]
          have hcc' : c3.completed = false := by simpa using hcc
          refine ⟨⟨?_, ?_⟩, fun _ h1 => by rw [hcc'] at h1; cases h1⟩
          · rw [k9, hcf, hcc']; rfl
          · rw [k10, hhk, hcc']; rfl
  | _ =>
    unfold X.step
    rw [if_neg (by rw [hx]; simp)]
    simp only [put_c, C.encode]
    first
      | exact ⟨h.of rfl rfl rfl rfl, fun h0 h1 => by rw [h0] at h1; cases h1⟩
      | (split <;> exact ⟨h.of rfl rfl rfl rfl, fun h0 h1 => by simp only at h1; rw [h0] at h1; cases h1⟩)

theorem confirmed {c : C} (hn : New c) (l : List Op) (hd : (X.run { c := c } l).dead = false) :
    Conf (X.run { c := c } l).c := by
  suffices ∀ {x : X}, Conf x.c → (x.run l).dead = false → Conf (x.run l).c from
    this (x := { c := c }) ⟨by rw [hn.confirmed, hn.completed]; rfl, by rw [hn.hsKeys, hn.completed]; rfl⟩ hd
  clear hd hn
  induction l with
  | nil => intro x h _; exact h
  | cons op l ih => intro x h hd; exact ih (conf_step h op (dead_run l hd)).1 hd

/-- **C179 buffered**: when the handshake becomes complete, 0-RTT packets that were kept are let go of. -/
theorem buffered {c : C} (hn : New c) (l : List Op) (op : Op) (hd : ((X.run { c := c } l).step op).dead = false)
    (h0 : (X.run { c := c } l).c.completed = false) (h1 : ((X.run { c := c } l).step op).c.completed = true) :
    ((X.run { c := c } l).step op).c.early = [] :=
  (conf_step (confirmed hn l (dead_step hd)) op hd).2 h0 h1

/-- **C179 stays**: complete is complete. -/
theorem stays (l : List Op) : ∀ {x : X}, x.c.completed = true → (x.run l).c.completed = true := by
  induction l with
  | nil => intro x h; exact h
  | cons op l ih => intro x h; exact ih (completed_step op h)

/-! ### The size of packets -/

/-- Settings of the recovery. -/
def tunes : Set → Bool
  | .factor _ => false
  | .pmtu _ _ => false
  | .idle _ => false
  | .streams _ => false
  | _ => true

/-- The recovery is not configured once the parameters of the peer are known. -/
def Settled : X → List Op → Prop
  | _, [] => True
  | x, op :: l => (∀ t, op = .call t → x.c.parsed = true → ∀ s, Act.set s ∈ t.acts → tunes s = false) ∧ Settled (x.step op) l

def Sized (c : C) : Prop := c.parsed = true → c.rcv.mds ≤ c.peer.maxUdpPayload

theorem process_sized (c : C) (tp : Params) : Sized (c.process tp) := by
  intro _
  unfold C.process
  simp only
  split
  · split <;> simp only <;> omega
  · simp only; omega

theorem parse_sized {c : C} (h : Sized c) (raw : Bytes) : Sized (c.parse raw).2 := by
  rcases parse_cases c raw with ⟨e, hp, _⟩ | ⟨hp, _⟩ | ⟨tp, hp, _⟩ <;> rw [hp]
  · exact h
  · exact h
  · exact process_sized c tp

theorem acts_rc {s : Bool} {l : List Act} {e e' : Ex} (h : e.acts s l = some e') (hn : ∀ x, Act.set x ∈ l → tunes x = false) : e'.rc = e.rc := by
  obtain ⟨h1, _⟩ := acts_last l h
  have hz : ∀ {α : Type} (f : Set → Option α) (a : α), (∀ x, tunes x = false → f x = none) → lastOf f l a = a :=
    fun f a hf => lastOf_none l a fun x hx => hf x (hn x hx)
  rw [h1, hz, hz, hz, hz, hz, hz, hz, hz, hz]
  all_goals
    intro x hx
    cases x <;> first | rfl | cases hx

theorem sized_step {x : X} (h : Sized x.c) (op : Op)
    (hs : ∀ t, op = .call t → x.c.parsed = true → ∀ s, Act.set s ∈ t.acts → tunes s = false) : Sized (x.step op).c := by
  cases hx : x.dead with
  | true => rw [dead_stays hx]; exact h
  | false =>
    cases op with
    | call t =>
      rw [step_call hx, put_c]
      rcases handshake_cases x.c t with ⟨_, hh⟩ | ⟨e, c1, he, rfl, hh⟩
      · rw [hh]; exact h
      rcases hh with ⟨_, hh⟩ | ⟨_, _, hh⟩ | ⟨_, _, hh⟩ | ⟨_, _, c2, rfl, hh⟩
      · rw [hh]; exact h
      · rw [hh]; exact h
      · rw [hh]
        apply parse_sized
        obtain ⟨_, _, _, b4, b5, _⟩ := adopt_keep { x.c with tls := e.tls, sent := e.sent } e
        intro hp
        rw [b4] at hp
        have hrc : e.rc = x.c.rc := acts_rc he (hs t rfl hp)
        rw [b5]
        have : (C.adopt { x.c with tls := e.tls, sent := e.sent } e).rcv = x.c.rcv := by
          unfold C.adopt
          split
          · simp only [hrc, ne_eq, not_true_eq_false, if_false]
            cases e.pmtu <;> simp only <;> split <;> rfl
          · rfl
        rw [this]
        exact h hp
      · have hp := parse_sized (c := { x.c with tls := e.tls, sent := e.sent, completed := t.completed, alpn := t.alpn }) h t.raw
        rcases hh with ⟨er, hq, hh⟩ | ⟨c3, hq, hh⟩
        · rw [hh]; exact h
        · rw [hq] at hp
          rw [hh]
          simp only
          split
          · exact hp
          · exact hp
    | _ =>
      unfold X.step
      rw [if_neg (by rw [hx]; simp)]
      simp only [put_c, C.encode]
      first
        | exact h
        | (split <;> exact h)

/-- **C179 size_partial**: packets are not made larger than the peer allows, if the recovery is not configured once the parameters of
the peer are known (`size_false`). *Missing*: this without the condition. -/
theorem size_partial {c : C} (hn : New c) (l : List Op) (hs : Settled { c := c } l) (hp : (X.run { c := c } l).c.parsed = true) :
    (X.run { c := c } l).c.rcv.mds ≤ (X.run { c := c } l).c.peer.maxUdpPayload := by
  suffices ∀ {x : X}, Sized x.c → Settled x l → Sized (x.run l).c from
    this (x := { c := c }) (fun h => by rw [show c.parsed = false from hn.parsed] at h; cases h) hs hp
  clear hs hp hn
  induction l with
  | nil => intro x h _; exact h
  | cons op l ih => intro x h hs; exact ih (sized_step h op hs.1) hs.2

/-- No path MTU discovery, and packets are no larger than configured. -/
def Own (c : C) : Prop := c.pmtud = none ∧ c.rcv.mds ≤ c.rcv.rc.maxSend

theorem parse_own {c : C} (h : Own c) (raw : Bytes) : Own (c.parse raw).2 := by
  rcases parse_cases c raw with ⟨e, hp, _⟩ | ⟨hp, _⟩ | ⟨tp, hp, _⟩ <;> rw [hp]
  · exact h
  · exact h
  · obtain ⟨h1, h2⟩ := h
    refine ⟨h1, ?_⟩
    unfold C.process
    simp only [h1]
    omega

theorem own_step {x : X} (h : Own x.c) (op : Op) (hs : ∀ t, op = .call t → ∀ d n, Act.set (.pmtu d n) ∉ t.acts) :
    Own (x.step op).c := by
  cases hx : x.dead with
  | true => rw [dead_stays hx]; exact h
  | false =>
    cases op with
    | call t =>
      rw [step_call hx, put_c]
      rcases handshake_cases x.c t with ⟨_, hh⟩ | ⟨e, c1, he, rfl, hh⟩
      · rw [hh]; exact h
      rcases hh with ⟨_, hh⟩ | ⟨_, _, hh⟩ | ⟨_, _, hh⟩ | ⟨_, _, c2, rfl, hh⟩
      · rw [hh]; exact h
      · rw [hh]; exact h
      · rw [hh]
        apply parse_own
        obtain ⟨_, _, hp, _⟩ := acts_last _ he
        have hpm : e.pmtu = none := by
          rw [hp, lastOf_none]
          · rfl
          · intro y hy
            cases y <;> first | rfl | exact absurd hy (hs t rfl _ _)
        obtain ⟨h1, h2⟩ := h
        unfold C.adopt
        split
        · simp only [hpm]
          split <;> split <;> first | exact ⟨h1, h2⟩ | exact ⟨h1, Nat.le_refl _⟩
        · exact ⟨h1, h2⟩
      · have hp := parse_own (c := { x.c with tls := e.tls, sent := e.sent, completed := t.completed, alpn := t.alpn }) h t.raw
        rcases hh with ⟨er, hq, hh⟩ | ⟨c3, hq, hh⟩
        · rw [hh]; exact h
        · rw [hq] at hp
          rw [hh]
          simp only
          split
          · exact hp
          · exact hp
    | _ =>
      unfold X.step
      rw [if_neg (by rw [hx]; simp)]
      simp only [put_c, C.encode]
      first
        | exact h
        | (split <;> exact h)

/-- **C179 own_size**: without path MTU discovery, packets are never made larger than configured, whatever the peer allows. -/
theorem own_size {c : C} (hn : New c) (hp : c.pmtud = none) (l : List Op)
    (hs : ∀ t, .call t ∈ l → ∀ d n, Act.set (.pmtu d n) ∉ t.acts) :
    (X.run { c := c } l).c.rcv.mds ≤ (X.run { c := c } l).c.rcv.rc.maxSend := by
  suffices ∀ {x : X}, Own x.c → Own (x.run l).c from
    (this (x := { c := c }) ⟨hp, by rw [show c.rcv = Rec.new c.rc from hn.rcv]; exact Nat.le_refl _⟩).2
  clear hn hp
  induction l with
  | nil => intro x h; exact h
  | cons op l ih =>
    intro x h
    exact ih (fun t ht => hs t (by simp [ht])) (own_step h op fun t ht => hs t (by simp [ht]))

/-! ### What does not hold -/

def encoded (p : Params) (s : Bool) : Bytes := ((setParams p s).toOption).getD []

def mine : Params := { maxData := 100000, maxStreamsBidi := 10, initialScid := some [1, 2] }

/-- A server. -/
def server : C :=
  { ids := { isServer := true, dcid := [7] }, loc := mine, tls := encoded mine true, bidi := 10,
    rc := { maxSend := 1500 }, rcv := Rec.new { maxSend := 1500 } }

theorem server_new : New server := by
  refine ⟨?_, rfl, rfl, rfl, rfl, rfl, rfl, rfl⟩
  decide +kernel

/-- The parameters of a client. -/
def theirs : Bytes := encoded { maxUdpPayload := 1200, initialScid := some [7] } false

/-- What the peer reads. -/
def told (x : X) : Option (Nat × Nat) :=
  x.c.sent.bind fun b => ((decode b (!x.c.ids.isServer) none).toOption).map fun p => (p.maxIdleTimeout, p.maxStreamsBidi)

/-- **C179 early_false**: with 0-RTT the first call of the TLS library finishes, and settings made in it are forgotten;
but the peer is told the parameters. It may then open more streams than are accepted. -/
theorem early_false :
    let x := X.run { c := server } [.call { acts := [.set (.streams 100), .set (.cc 3), .write], out := .ok, raw := theirs },
      .call { out := .ok, completed := true, raw := theirs }]
    told x = some (0, 100) ∧ x.c.bidi = 10 ∧ x.c.rc.cc = 1 ∧ x.dead = false ∧ x.c.completed = true := by
  decide +kernel

/-- **C179 late_false**: when something is in flight already, settings have no effect, as documented; but the
peer is told the parameters. -/
theorem late_false :
    let x := X.run { c := server } [.flight 1200 1, .call { acts := [.set (.idle 30000), .set (.streams 100), .write], out := .done, raw := theirs }]
    told x = some (30000, 100) ∧ x.c.bidi = 10 ∧ x.c.loc.maxIdleTimeout = 0 ∧ x.dead = false := by
  decide +kernel

def full : Params :=
  { mine with
    originalDcid := some (List.replicate 20 1)
    initialScid := some (List.replicate 20 2)
    retryScid := some (List.replicate 20 3)
    resetToken := some 4
    maxData := 10000000
    maxStreamDataBidiLocal := 1000000
    maxStreamDataBidiRemote := 1000000
    maxStreamDataUni := 1000000
    maxStreamsBidi := 100
    maxStreamsUni := 100 }

/-- **C179 short_false**: parameters that do not fit into 128 bytes are in force although they were refused and not
announced. -/
theorem short_false :
    let x := X.run { c := { server with loc := full, tls := encoded full true, bidi := 100 } }
      [.call { acts := [.set (.idle 30000), .write], out := .done, raw := theirs }]
    told x = some (0, 100) ∧ x.c.loc.maxIdleTimeout = 30000 ∧ x.dead = false ∧
    New { server with loc := full, tls := encoded full true, bidi := 100 } := by
  refine ⟨by decide +kernel, by decide +kernel, by decide +kernel, ?_, rfl, rfl, rfl, rfl, rfl, rfl, rfl⟩
  decide +kernel

/-- **C179 panic_false**: an idle timeout that is not an integer of the format makes the setter for callbacks panic; that of
the connection takes the largest instead. -/
theorem panic_false :
    server.handshake { acts := [.set (.idle (2 ^ 62))], out := .done } = (.error (.tp .panic), server) ∧
    (X.step { c := server } (.idle (2 ^ 62))).c.loc.maxIdleTimeout = 2 ^ 62 - 1 ∧
    (X.step { c := server } (.idle (2 ^ 62))).dead = false := by
  decide +kernel

/-- **C179 size_false**: a setting of the recovery made after the parameters of the peer are known (and before anything is in
flight) undoes the bound they set on packets. -/
theorem size_false :
    let x := X.run { c := server } [.call { out := .done, raw := theirs }]
    let y := x.step (.call { acts := [.set (.cc 2)], out := .done, raw := theirs })
    x.c.rcv.mds = 1200 ∧ y.c.rcv.mds = 1500 ∧ y.c.peer.maxUdpPayload = 1200 ∧ y.c.rcv.ackDelay = y.c.peer.maxAckDelay ∧ y.dead = false := by
  decide +kernel

/-! ### A concrete case -/

example :
    let l : List Op := [.first [9, 9], .call { acts := [.set (.streams 50), .set (.idle 5000), .set (.cc 2), .set (.streams 100), .write], out := .done, raw := theirs },
      .flight 2400 3, .keep [1], .call { out := .ok, completed := true, raw := theirs, alpn := [104, 51] }]
    let x := X.run { c := server } l
    told x = some (5000, 100) ∧ x.c.bidi = 100 ∧ x.c.loc.maxIdleTimeout = 5000 ∧ x.c.rc.cc = 2 ∧ x.c.rcv.rc.cc = 2 ∧ x.c.rcv.mds = 1200 ∧
    x.c.confirmed = true ∧ x.c.hsKeys = false ∧ x.c.early = [] ∧ x.dead = false := by
  decide +kernel

example : ProperRun { c := server } [.first [9, 9], .call { acts := [.set (.streams 50), .set (.cc 2), .write], out := .done, raw := theirs },
    .flight 2400 3, .call { acts := [.set (.factor 2)], out := .ok, completed := true }] := by
  refine ⟨rfl, fun _ => ⟨rfl, ?_, ?_, ?_, ⟨fun _ => ?_, ?_, trivial⟩,
    ⟨encoded { mine with originalDcid := some [9, 9], maxStreamsBidi := 50 } true, ?_⟩, trivial⟩, trivial, ?_, trivial⟩
  · decide +kernel
  · decide +kernel
  · decide +kernel
  · decide +kernel
  · intro h; cases h
  · decide +kernel
  · rintro ⟨s, hs, hp⟩
    cases List.mem_singleton.mp hs
    cases hp

end Verif.Props.C179
