import Verif.Conn.Tls

/-!
C180: the application protocol is one that both sides have, and what the TLS library says goes where
it belongs.
-/

namespace Verif.Props.C180
open Verif.Tls

/-! ### Specification: protocols -/

/-- A list of protocols on the wire (RFC 7301, section 3.1): each with its length in front. -/
def enc (l : List Str) : Str := l.flatMap fun p => p.length :: p

/-- Names that have a wire format. -/
def Short (l : List Str) : Prop := ∀ p ∈ l, p.length < 256

/-- All numbers are bytes. -/
def IsBytes (b : Str) : Prop := ∀ n ∈ b, n < 256

/-- The first of `theirs` that is one of `mine`. -/
def first (mine : List Str) : List Str → Option Str
  | [] => none
  | p :: l => if p ∈ mine then some p else first mine l

/-- `q` comes before `p`. -/
def Before (q p : Str) (l : List Str) : Prop := ∃ a b c, l = a ++ q :: b ++ p :: c

/-- A check of a list as the TLS library makes it: a series of names that are not empty. -/
def wellFormed (b : Str) : Bool := decide (enc (parse b) = b) && (parse b).all (fun p => decide (p ≠ []))

/-! ### Reading lists -/

theorem enc_cons (p : Str) (l : List Str) : enc (p :: l) = p.length :: (p ++ enc l) := by
  simp [enc]

theorem enc_append (a b : List Str) : enc (a ++ b) = enc a ++ enc b := by
  simp [enc]

theorem wire_enc {l : List Str} (h : Short l) : wire l = enc l := by
  induction l with
  | nil => rfl
  | cons p l ih =>
    have hp : p.length < 256 := h p (by simp)
    rw [enc_cons, wire, ih (fun q hq => h q (by simp [hq])), Nat.mod_eq_of_lt hp]
    simp

theorem next_some {b p rest : Str} (h : next b = some (p, rest)) : b = p.length :: (p ++ rest) := by
  cases b with
  | nil => simp [next] at h
  | cons n t =>
    simp only [next] at h
    split at h
    · simp at h
    · rename_i hn
      simp only [Option.some.injEq, Prod.mk.injEq] at h
      obtain ⟨rfl, rfl⟩ := h
      simp [List.length_take]
      omega

theorem next_enc (p rest : Str) : next (p.length :: (p ++ rest)) = some (p, rest) := by
  simp [next]

theorem protos_enc (l : List Str) : ∀ fuel, (enc l).length ≤ fuel → protos fuel (enc l) = l := by
  induction l with
  | nil =>
    intro fuel _
    cases fuel <;> simp [protos, enc, next]
  | cons p l ih =>
    intro fuel h
    rw [enc_cons] at h ⊢
    cases fuel with
    | zero => simp at h
    | succ n =>
      simp only [protos, next_enc]
      rw [ih n (by simp at h; omega)]

theorem parse_enc (l : List Str) : parse (enc l) = l := protos_enc l _ (Nat.le_refl _)

/-! ### Selection -/

theorem find_some {p : Str} {mine : List Str} {r : Str × Nat} (h : find p mine = some r) :
    r = (p, p.length % 256) ∧ p ∈ mine := by
  induction mine with
  | nil => simp [find] at h
  | cons e l ih =>
    simp only [find] at h
    split at h
    · rename_i he
      obtain ⟨_, rfl⟩ := he
      simp only [Option.some.injEq] at h
      exact ⟨h.symm, by simp⟩
    · obtain ⟨h1, h2⟩ := ih h
      exact ⟨h1, by simp [h2]⟩

theorem find_none {p : Str} {mine : List Str} (h : find p mine = none) : p ∉ mine := by
  induction mine with
  | nil => simp
  | cons e l ih =>
    simp only [find] at h
    split at h
    · simp at h
    · rename_i he
      intro hp
      simp only [List.mem_cons] at hp
      rcases hp with rfl | hp
      · exact he ⟨rfl, rfl⟩
      · exact ih h hp

theorem loop_some {mine : List Str} : ∀ fuel (b : Str) (r : Str × Nat), selectLoop mine fuel b = some r →
    ∃ a rest, b = enc a ++ (r.1.length :: (r.1 ++ rest)) ∧ r.1 ∈ mine ∧ r.2 = r.1.length % 256 ∧ ∀ q ∈ a, q ∉ mine := by
  intro fuel
  induction fuel with
  | zero => intro b r h; simp [selectLoop] at h
  | succ n ih =>
    intro b r h
    simp only [selectLoop] at h
    rcases hn : next b with _ | ⟨p, rest⟩
    · simp [hn] at h
    · simp only [hn] at h
      have hb := next_some hn
      rcases hf : find p mine with _ | r'
      · simp only [hf] at h
        obtain ⟨a, rest', h1, h2, h3, h4⟩ := ih rest r h
        refine ⟨p :: a, rest', ?_, h2, h3, ?_⟩
        · rw [enc_cons, hb, h1]; simp
        · intro q hq
          simp only [List.mem_cons] at hq
          rcases hq with rfl | hq
          · exact find_none hf
          · exact h4 q hq
      · simp only [hf, Option.some.injEq] at h
        subst h
        obtain ⟨h1, h2⟩ := find_some hf
        subst h1
        exact ⟨[], rest, by simpa [enc] using hb, h2, rfl, by simp⟩

/-- Whatever the client sends, a protocol that is chosen is one of the server's, it is in the
client's list, and nothing before it there is one of the server's; it is reported in full. -/
theorem picks (mine : List Str) (inp : Str) (hb : IsBytes inp) (p : Str) (h : chosen mine inp = some p) :
    p ∈ mine ∧ ∃ a rest, inp = enc a ++ (p.length :: (p ++ rest)) ∧ ∀ q ∈ a, q ∉ mine := by
  simp only [chosen, select, Option.map_eq_some_iff] at h
  obtain ⟨r, h, h'⟩ := h
  split at h
  · simp at h
  · obtain ⟨a, rest, h1, h2, h3, h4⟩ := loop_some _ _ _ h
    have hl : r.1.length < 256 := hb _ (by rw [h1]; simp)
    rw [Nat.mod_eq_of_lt hl] at h3
    have hr : r.1 = p := by
      rw [h3, List.take_length] at h'
      exact h'
    rw [hr] at h1 h2
    exact ⟨h2, a, rest, h1, h4⟩

/-- If nothing is chosen, the handshake fails, and there is nothing in common. -/
theorem nothing (mine : List Str) (inp : Str) (h : chosen mine inp = none) (a : List Str) (rest : Str)
    (he : inp = enc a ++ rest) : ∀ p ∈ a, p ∉ mine := by
  simp only [chosen, select, Option.map_eq_none_iff] at h
  split at h
  · rename_i hm
    subst hm
    simp
  · subst he
    have key : ∀ (a : List Str) fuel, (enc a).length ≤ fuel → selectLoop mine fuel (enc a ++ rest) = none →
        ∀ p ∈ a, p ∉ mine := by
      intro a
      induction a with
      | nil => intro _ _ _ p hp; simp at hp
      | cons p l ih =>
        intro fuel hl hs
        rw [enc_cons] at hl hs
        cases fuel with
        | zero => simp at hl
        | succ n =>
          have he : p.length :: (p ++ enc l) ++ rest = p.length :: (p ++ (enc l ++ rest)) := by simp
          rw [he, selectLoop, next_enc] at hs
          rcases hf : find p mine with _ | r
          · simp only [hf] at hs
            intro q hq
            simp only [List.mem_cons] at hq
            rcases hq with rfl | hq
            · exact find_none hf
            · exact ih n (by simp at hl; omega) hs q hq
          · simp [hf] at hs
    exact key a _ (by simp) h

theorem first_some {mine theirs : List Str} {p : Str} (h : first mine theirs = some p) :
    p ∈ mine ∧ p ∈ theirs := by
  induction theirs with
  | nil => simp [first] at h
  | cons q l ih =>
    simp only [first] at h
    split at h
    · rename_i hq
      simp only [Option.some.injEq] at h
      subst h
      exact ⟨hq, by simp⟩
    · exact ⟨(ih h).1, by simp [(ih h).2]⟩

theorem first_none {mine theirs : List Str} (h : first mine theirs = none) : ∀ p ∈ theirs, p ∉ mine := by
  induction theirs with
  | nil => simp
  | cons q l ih =>
    simp only [first] at h
    split at h
    · simp at h
    · rename_i hq
      intro p hp
      simp only [List.mem_cons] at hp
      rcases hp with rfl | hp
      · exact hq
      · exact ih h p hp

theorem loop_first (mine : List Str) (l : List Str) : ∀ fuel, (enc l).length ≤ fuel →
    selectLoop mine fuel (enc l) = (first mine l).map fun p => (p, p.length % 256) := by
  induction l with
  | nil => intro fuel _; cases fuel <;> simp [selectLoop, enc, next, first]
  | cons p l ih =>
    intro fuel h
    rw [enc_cons] at h ⊢
    cases fuel with
    | zero => simp at h
    | succ n =>
      rw [selectLoop, next_enc]
      simp only [first]
      rcases hf : find p mine with _ | r
      · rw [if_neg (find_none hf)]
        exact ih n (by simp at h; omega)
      · obtain ⟨h1, h2⟩ := find_some hf
        rw [if_pos h2, h1]
        rfl

/-- For a list that is well-formed, the choice is the first of the client's protocols that the server
has. -/
theorem choice (mine theirs : List Str) (hs : Short theirs) : chosen mine (enc theirs) = first mine theirs := by
  have hl := loop_first mine theirs _ (Nat.le_refl _)
  simp only [chosen, select]
  split
  · rename_i hm
    subst hm
    rcases hf : first [] theirs with _ | p
    · rfl
    · have := (first_some hf).1
      simp at this
  · rw [hl]
    rcases hf : first mine theirs with _ | p
    · rfl
    · have hp := hs p (first_some hf).2
      simp [Nat.mod_eq_of_lt hp]

/-- Two endpoints configured with lists of names of at most 255 bytes, the TLS library of the client
having taken its list: what is chosen is in both lists, and something is chosen if there is anything
in both. -/
theorem agree_partial (takes takes' : Str → Bool) (c s : Cfg) (theirs mine : List Str) (hs : Short theirs)
    (hok : (c.set takes theirs).1 = true) :
    let r := chosen (s.set takes' mine).2.protos (c.set takes theirs).2.offer
    (∀ p, r = some p → p ∈ theirs ∧ p ∈ mine) ∧ (r = none → ∀ p ∈ theirs, p ∉ mine) := by
  have ho : (c.set takes theirs).2.offer = enc theirs := by
    simp only [Cfg.set] at hok ⊢
    split
    · exact wire_enc hs
    · rename_i ht
      rw [if_neg ht] at hok
      simp at hok
  have hm : (s.set takes' mine).2.protos = mine := by
    simp only [Cfg.set]
    split <;> rfl
  simp only [ho, hm, choice mine theirs hs]
  exact ⟨fun p hp => ⟨(first_some hp).2, (first_some hp).1⟩, fun h => first_none h⟩

/-- A name of more than 255 bytes is accepted, and the list sent is another one: here 129 times the
name `A`. A server chooses it, and it is not among the client's. -/
theorem long_false : ∃ theirs mine p, let c := ({} : Cfg).set wellFormed theirs
    c.1 = true ∧ chosen mine c.2.offer = some p ∧ p ∉ theirs := by
  refine ⟨[65 :: (List.replicate 128 [1, 65]).flatten], [[65]], [65], ?_⟩
  decide +kernel

/-- A list in wire format is the same as the list of its names. -/
theorem wire_partial (takes : Str → Bool) (c : Cfg) (l : List Str) : c.setWire takes (enc l) = c.set takes l := by
  simp [Cfg.setWire, parse_enc]

/-- A list that is not a series of strings is accepted: what cannot be read is dropped, even all of
it, after which the server refuses every client. -/
theorem wire_false :
    (({} : Cfg).setWire wellFormed [2, 104, 51, 5, 1]).1 = true ∧
    (({} : Cfg).setWire wellFormed [2, 104, 51, 5, 1]).2.protos = [[104, 51]] ∧
    (({} : Cfg).setWire wellFormed [5, 1]).1 = true ∧
    (({} : Cfg).setWire wellFormed [5, 1]).2.protos = [] ∧
    (∀ l, enc l ≠ [5, 1]) ∧
    ∀ inp, chosen (({} : Cfg).setWire wellFormed [5, 1]).2.protos inp = none := by
  have h : (({} : Cfg).setWire wellFormed [5, 1]).2.protos = [] := by decide +kernel
  refine ⟨by decide +kernel, by decide +kernel, by decide +kernel, h, ?_, ?_⟩
  · intro l hl
    have := parse_enc l
    rw [hl] at this
    have h2 : parse [5, 1] = [] := by decide +kernel
    rw [h2] at this
    subst this
    simp [enc] at hl
  · intro inp
    rw [h]
    simp [chosen, select]

/-- A list that the TLS library refuses is refused, but the server's list is replaced all the same. -/
theorem refused_false : let c := (({} : Cfg).set wellFormed [[104, 51]]).2
    (c.set wellFormed [[]]).1 = false ∧ (c.set wellFormed [[]]).2.protos = [[]] ∧
    (c.set wellFormed [[]]).2.offer = c.offer := by
  decide +kernel

/-- The order of the server's list plays no role (RFC 7301, section 3.2, would have the server select
what it prefers most): the choice depends only on which protocols are in it. -/
theorem order_false : ∃ mine theirs p q, chosen mine (enc theirs) = some p ∧ q ∈ theirs ∧ Before q p mine :=
  ⟨[[1], [2]], [[2], [1]], [2], [1], by decide +kernel, by simp, [], [], [], rfl⟩

example : chosen [[104, 51], [104, 113]] (enc [[120], [104, 113], [104, 51]]) = some [104, 113] := by decide +kernel
example : chosen [[104, 51]] (enc [[120], [104]]) = none := by decide +kernel
/-- A list that breaks off: what is before is used. -/
example : chosen [[104, 51]] [2, 104, 51, 9, 1] = some [104, 51] := by decide +kernel
example : wellFormed (enc [[104, 51]]) = true := by decide +kernel

/-! ### Specification: callbacks -/

/-- The last value. -/
def lastOf {α : Type} (f : Cb → Option α) : List Cb → Option α → Option α
  | [], d => d
  | c :: l, d => lastOf f l (match f c with | some v => some v | none => d)

/-- Cipher suites of TLS 1.3 (RFC 8446, B.4). -/
inductive Suite : Nat → Alg → Prop
  | aes128 : Suite 0x03001301 .aes128
  | aes256 : Suite 0x03001302 .aes256
  | chacha : Suite 0x03001303 .chacha

/-- Handshake bytes for packets of one kind. -/
def bytesFor (e : Epoch) : List Cb → Str
  | [] => []
  | .data .initial b :: l => (if e = .initial then b else []) ++ bytesFor e l
  | .data .handshake b :: l => (if e = .handshake then b else []) ++ bytesFor e l
  | .data .oneRtt b :: l => (if e = .application then b else []) ++ bytesFor e l
  | _ :: l => bytesFor e l

/-- Lines for the key log. -/
def lines : List Cb → Str
  | [] => []
  | .keylog line :: l => line ++ 10 :: lines l
  | _ :: l => lines l

/-- The last alert. -/
def alertOf : Cb → Option Nat
  | .alert a => some a
  | _ => none

/-- All callbacks. -/
def all : List Ev → List Cb
  | [] => []
  | .call _ l _ :: evs => l ++ all evs
  | .close .. :: evs => all evs

theorem cipher_suite {id : Nat} {a : Alg} : cipher id = some a ↔ Suite id a := by
  constructor
  · intro h
    simp only [cipher] at h
    repeat' split at h
    all_goals first | (simp at h; subst h; subst_vars; constructor) | simp at h
  · rintro (_ | _ | _) <;> rfl

/-! ### Keys -/

/-- A key comes from a callback. -/
def ReadFrom (cbs : List Cb) (l : Level) (k : Key) : Prop := ∃ id, Suite id k.alg ∧ .read l id k.secret ∈ cbs
def WriteFrom (cbs : List Cb) (l : Level) (k : Key) : Prop := ∃ id, Suite id k.alg ∧ .write l id k.secret ∈ cbs

theorem ReadFrom.mono {a b : List Cb} {l : Level} {k : Key} (h : ReadFrom a l k) (hs : ∀ x ∈ a, x ∈ b) : ReadFrom b l k := by
  obtain ⟨id, h1, h2⟩ := h
  exact ⟨id, h1, hs _ h2⟩

theorem WriteFrom.mono {a b : List Cb} {l : Level} {k : Key} (h : WriteFrom a l k) (hs : ∀ x ∈ a, x ∈ b) : WriteFrom b l k := by
  obtain ⟨id, h1, h2⟩ := h
  exact ⟨id, h1, hs _ h2⟩

/-- Where each key may come from. -/
structure Good (cbs : List Cb) (s : St) : Prop where
  iniOpen : ∀ k, s.ini.opn = some k → ReadFrom cbs .initial k
  hsOpen : ∀ k, s.hs.opn = some k → ReadFrom cbs .handshake k
  appOpen : ∀ k, s.app.opn = some k → ReadFrom cbs .oneRtt k
  early : ∀ k, s.app.opn0 = some k → s.server = true ∧ ReadFrom cbs .zeroRtt k
  noEarly : s.ini.opn0 = none ∧ s.hs.opn0 = none
  iniSeal : ∀ k, s.ini.sealing = some k → WriteFrom cbs .initial k
  hsSeal : ∀ k, s.hs.sealing = some k → WriteFrom cbs .handshake k
  appSeal : ∀ k, s.app.sealing = some k → WriteFrom cbs .oneRtt k ∨ (s.server = false ∧ WriteFrom cbs .zeroRtt k)

theorem Good.mono {a b : List Cb} {s : St} (g : Good a s) (hs : ∀ x ∈ a, x ∈ b) : Good b s where
  iniOpen k h := (g.iniOpen k h).mono hs
  hsOpen k h := (g.hsOpen k h).mono hs
  appOpen k h := (g.appOpen k h).mono hs
  early k h := ⟨(g.early k h).1, (g.early k h).2.mono hs⟩
  noEarly := g.noEarly
  iniSeal k h := (g.iniSeal k h).mono hs
  hsSeal k h := (g.hsSeal k h).mono hs
  appSeal k h := (g.appSeal k h).imp (·.mono hs) fun h => ⟨h.1, h.2.mono hs⟩

theorem good_cb {derives : Alg → Str → Bool} {cbs : List Cb} {s : St} (g : Good cbs s) (c : Cb) (hc : c ∈ cbs) :
    Good cbs (s.cb derives c) := by
  obtain ⟨g1, g2, g3, g4, g5, g6, g7, g8⟩ := g
  cases c with
  | flush => exact ⟨g1, g2, g3, g4, g5, g6, g7, g8⟩
  | alert a => exact ⟨g1, g2, g3, g4, g5, g6, g7, g8⟩
  | keylog l => exact ⟨g1, g2, g3, g4, g5, g6, g7, g8⟩
  | data l b =>
    simp only [St.cb, St.data]
    split
    · exact ⟨g1, g2, g3, g4, g5, g6, g7, g8⟩
    · cases l <;> exact ⟨g1, g2, g3, g4, g5, g6, g7, g8⟩
  | read l id sec =>
    simp only [St.cb, St.read]
    rcases hi : cipher id with _ | alg
    · exact ⟨g1, g2, g3, g4, g5, g6, g7, g8⟩
    · have hk : ReadFrom cbs l ⟨alg, sec⟩ := ⟨id, cipher_suite.1 hi, hc⟩
      simp only
      split
      · rename_i hcond
        split
        · split
          · rename_i hl
            subst hl
            refine ⟨g1, g2, g3, ?_, g5, g6, g7, g8⟩
            intro k hk'
            simp only [Level.space, St.put, St.get, Option.some.injEq] at hk'
            subst hk'
            exact ⟨by simpa [Level.space, St.put] using hcond, hk⟩
          · rename_i hl
            cases l with
            | zeroRtt => exact absurd rfl hl
            | initial =>
              refine ⟨?_, g2, g3, g4, g5, g6, g7, g8⟩
              intro k hk'
              simp only [Level.space, St.put, St.get, Option.some.injEq] at hk'
              subst hk'
              exact hk
            | handshake =>
              refine ⟨g1, ?_, g3, g4, g5, g6, g7, g8⟩
              intro k hk'
              simp only [Level.space, St.put, St.get, Option.some.injEq] at hk'
              subst hk'
              exact hk
            | oneRtt =>
              refine ⟨g1, g2, ?_, g4, g5, g6, g7, g8⟩
              intro k hk'
              simp only [Level.space, St.put, St.get, Option.some.injEq] at hk'
              subst hk'
              exact hk
        · exact ⟨g1, g2, g3, g4, g5, g6, g7, g8⟩
      · exact ⟨g1, g2, g3, g4, g5, g6, g7, g8⟩
  | write l id sec =>
    simp only [St.cb, St.write]
    rcases hi : cipher id with _ | alg
    · exact ⟨g1, g2, g3, g4, g5, g6, g7, g8⟩
    · have hk : WriteFrom cbs l ⟨alg, sec⟩ := ⟨id, cipher_suite.1 hi, hc⟩
      simp only
      split
      · rename_i hcond
        split
        · cases l with
          | zeroRtt =>
            refine ⟨g1, g2, g3, g4, g5, g6, g7, ?_⟩
            intro k hk'
            simp only [Level.space, St.put, St.get, Option.some.injEq] at hk'
            subst hk'
            exact .inr ⟨by simpa [Level.space, St.put] using hcond, hk⟩
          | initial =>
            refine ⟨g1, g2, g3, g4, g5, ?_, g7, g8⟩
            intro k hk'
            simp only [Level.space, St.put, St.get, Option.some.injEq] at hk'
            subst hk'
            exact hk
          | handshake =>
            refine ⟨g1, g2, g3, g4, g5, g6, ?_, g8⟩
            intro k hk'
            simp only [Level.space, St.put, St.get, Option.some.injEq] at hk'
            subst hk'
            exact hk
          | oneRtt =>
            refine ⟨g1, g2, g3, g4, g5, g6, g7, ?_⟩
            intro k hk'
            simp only [Level.space, St.put, St.get, Option.some.injEq] at hk'
            subst hk'
            exact .inl hk
        · exact ⟨g1, g2, g3, g4, g5, g6, g7, g8⟩
      · exact ⟨g1, g2, g3, g4, g5, g6, g7, g8⟩

theorem good_cbs {derives : Alg → Str → Bool} {cbs : List Cb} (l : List Cb) : ∀ {s : St}, Good cbs s →
    (∀ c ∈ l, c ∈ cbs) → Good cbs (s.cbs derives l) := by
  induction l with
  | nil => intro s g _; exact g
  | cons c l ih =>
    intro s g h
    exact ih (good_cb g c (h c (by simp))) fun x hx => h x (by simp [hx])

theorem good_err {cbs : List Cb} {s : St} (g : Good cbs s) (e : Option Err) : Good cbs { s with err := e } :=
  ⟨g.iniOpen, g.hsOpen, g.appOpen, g.early, g.noEarly, g.iniSeal, g.hsSeal, g.appSeal⟩

theorem good_failed {cbs : List Cb} {s : St} (g : Good cbs s) (e : Nat) : Good cbs (s.failed e) := by
  simp only [St.failed]
  split
  · exact good_err g _
  · exact g

theorem good_close {cbs : List Cb} {s : St} (g : Good cbs s) (safe app : Bool) (code : Nat) (r : Str) :
    Good cbs (s.close safe app code r).2 := by
  simp only [St.close]
  split
  · exact g
  · split <;> exact good_err g _

theorem good_run {derives : Alg → Str → Bool} (evs : List Ev) : ∀ {cbs : List Cb} {s : St}, Good cbs s →
    (∀ c ∈ all evs, c ∈ cbs) → Good cbs (s.run derives evs) := by
  induction evs with
  | nil => intro cbs s g _; exact g
  | cons e evs ih =>
    intro cbs s g h
    apply ih
    · cases e with
      | close safe app code r => exact good_close g ..
      | call inRecv l code =>
        have g' : Good cbs ((s.cbs derives l).failed code) :=
          good_failed (good_cbs l g fun c hc => h c (by simp [all, hc])) code
        simp only [St.step]
        split
        · exact g
        · split
          · exact good_close g' ..
          · exact g'
    · intro c hc
      apply h
      cases e with
      | close => exact hc
      | call => simp [all, hc]

/-- Every key is derived from a secret that the TLS library gave for packets of that kind, with the
algorithm of the cipher suite it named. 0-RTT packets are opened by servers only and sealed by clients
only; a key for 1-RTT packets is never taken from a secret for 0-RTT, except that a client seals
packets with its key for 0-RTT until it has another. -/
theorem keys (derives : Alg → Str → Bool) (server : Bool) (log : Option Str) (evs : List Ev) :
    Good (all evs) (({ server := server, log := log } : St).run derives evs) := by
  apply good_run evs _ fun _ h => h
  constructor <;> simp

theorem server_cbs (derives : Alg → Str → Bool) (l : List Cb) : ∀ s : St, (s.cbs derives l).server = s.server := by
  induction l with
  | nil => intro s; rfl
  | cons c l ih =>
    intro s
    rw [show s.cbs derives (c :: l) = (s.cb derives c).cbs derives l from rfl, ih]
    cases c with
    | read l id sec =>
      simp only [St.cb, St.read]
      repeat' split
      all_goals first | rfl | (cases l <;> rfl)
    | write l id sec =>
      simp only [St.cb, St.write]
      repeat' split
      all_goals first | rfl | (cases l <;> rfl)
    | data l b =>
      simp only [St.cb, St.data]
      split
      · rfl
      · cases l <;> rfl
    | _ => rfl

/-- The secrets given for opening 1-RTT packets, for opening 0-RTT packets, and for sealing packets
with application data, as far as keys can be derived. -/
def openOf (derives : Alg → Str → Bool) : Cb → Option Key
  | .read .oneRtt id sec => (cipher id).bind fun a => if derives a sec then some ⟨a, sec⟩ else none
  | _ => none
def earlyOf (derives : Alg → Str → Bool) : Cb → Option Key
  | .read .zeroRtt id sec => (cipher id).bind fun a => if derives a sec then some ⟨a, sec⟩ else none
  | _ => none
def sealOf (derives : Alg → Str → Bool) (server : Bool) : Cb → Option Key
  | .write .oneRtt id sec => (cipher id).bind fun a => if derives a sec then some ⟨a, sec⟩ else none
  | .write .zeroRtt id sec =>
    if server then none else (cipher id).bind fun a => if derives a sec then some ⟨a, sec⟩ else none
  | _ => none

/-- The keys in use are those given last. -/
theorem latest (derives : Alg → Str → Bool) (l : List Cb) : ∀ s : St,
    (s.cbs derives l).app.opn = lastOf (openOf derives) l s.app.opn ∧
    (s.cbs derives l).app.opn0 = (if s.server then lastOf (earlyOf derives) l s.app.opn0 else s.app.opn0) ∧
    (s.cbs derives l).app.sealing = lastOf (sealOf derives s.server) l s.app.sealing := by
  induction l with
  | nil => intro s; simp [St.cbs, lastOf]
  | cons c l ih =>
    intro s
    have hs : (s.cb derives c).server = s.server := server_cbs derives [c] s
    have h := ih (s.cb derives c)
    rw [show s.cbs derives (c :: l) = (s.cb derives c).cbs derives l from rfl]
    rw [hs] at h
    obtain ⟨h1, h2, h3⟩ := h
    rw [h1, h2, h3]
    clear h1 h2 h3
    simp only [lastOf]
    cases c with
    | flush => simp [St.cb, openOf, earlyOf, sealOf]
    | alert a => simp [St.cb, St.alert, openOf, earlyOf, sealOf]
    | keylog a => simp [St.cb, St.keylog, openOf, earlyOf, sealOf]
    | data lv b => cases lv <;> simp [St.cb, St.data, openOf, earlyOf, sealOf, St.put, St.get, Level.space]
    | read lv id sec =>
      rcases hi : cipher id with _ | alg
      · cases lv <;> cases hsv : s.server <;>
          simp [St.cb, St.read, openOf, earlyOf, sealOf, hi, hsv]
      · cases lv <;> cases hsv : s.server <;> cases hd : derives alg sec <;>
          simp [St.cb, St.read, openOf, earlyOf, sealOf, St.put, St.get, Level.space, hi, hsv, hd]
    | write lv id sec =>
      rcases hi : cipher id with _ | alg
      · cases lv <;> cases hsv : s.server <;>
          simp [St.cb, St.write, openOf, earlyOf, sealOf, hi, hsv]
      · cases lv <;> cases hsv : s.server <;> cases hd : derives alg sec <;>
          simp [St.cb, St.write, openOf, earlyOf, sealOf, St.put, St.get, Level.space, hi, hsv, hd]

/-! ### Handshake bytes, key log -/

/-- The bytes of the handshake are sent in packets of the kind they are for, in the order in which
they were given, none missing; lines go to the key log in full, and nowhere if there is none. -/
theorem bytes (derives : Alg → Str → Bool) (l : List Cb) : ∀ s : St,
    (∀ e, ((s.cbs derives l).get e).out = (s.get e).out ++ bytesFor e l) ∧
    (s.cbs derives l).log = s.log.map (· ++ lines l) := by
  induction l with
  | nil =>
    intro s
    refine ⟨fun e => by simp [St.cbs, bytesFor], ?_⟩
    cases hl : s.log <;> simp [St.cbs, lines, hl]
  | cons c l ih =>
    intro s
    obtain ⟨h1, h2⟩ := ih (s.cb derives c)
    rw [show s.cbs derives (c :: l) = (s.cb derives c).cbs derives l from rfl, h2]
    cases c with
    | flush => exact ⟨fun e => h1 e, rfl⟩
    | alert a =>
      refine ⟨fun e => ?_, rfl⟩
      rw [h1 e]
      cases e <;> rfl
    | keylog line =>
      refine ⟨fun e => ?_, ?_⟩
      · rw [h1 e]
        cases e <;> rfl
      · simp only [St.cb, St.keylog, lines]
        cases s.log <;> simp
    | data lv b =>
      refine ⟨fun e => ?_, ?_⟩
      · rw [h1 e]
        cases lv <;> cases e <;> simp [St.cb, St.data, St.put, St.get, Level.space, bytesFor]
      · cases lv <;> simp [St.cb, St.data, St.put, Level.space, lines]
    | read lv id sec =>
      have hg : ∀ e, ((s.cb derives (.read lv id sec)).get e).out = (s.get e).out := by
        intro e
        simp only [St.cb, St.read]
        repeat' split
        all_goals first | rfl | (cases lv <;> cases e <;> rfl)
      have hl : (s.cb derives (.read lv id sec)).log = s.log := by
        simp only [St.cb, St.read]
        repeat' split
        all_goals first | rfl | (cases lv <;> rfl)
      exact ⟨fun e => by rw [h1 e, hg e]; rfl, by rw [hl]; rfl⟩
    | write lv id sec =>
      have hg : ∀ e, ((s.cb derives (.write lv id sec)).get e).out = (s.get e).out := by
        intro e
        simp only [St.cb, St.write]
        repeat' split
        all_goals first | rfl | (cases lv <;> cases e <;> rfl)
      have hl : (s.cb derives (.write lv id sec)).log = s.log := by
        simp only [St.cb, St.write]
        repeat' split
        all_goals first | rfl | (cases lv <;> rfl)
      exact ⟨fun e => by rw [h1 e, hg e]; rfl, by rw [hl]; rfl⟩

/-- Nothing panics unless the TLS library has handshake bytes for 0-RTT packets, which TLS 1.3 does
not have. -/
theorem panics (derives : Alg → Str → Bool) (l : List Cb) : ∀ s : St,
    (s.cbs derives l).panicked = (s.panicked || l.any fun c => match c with | .data .zeroRtt _ => true | _ => false) := by
  induction l with
  | nil => intro s; simp [St.cbs]
  | cons c l ih =>
    intro s
    rw [show s.cbs derives (c :: l) = (s.cb derives c).cbs derives l from rfl, ih]
    have hc : (s.cb derives c).panicked = (s.panicked || match c with | .data .zeroRtt _ => true | _ => false) := by
      cases c with
      | read lv id sec =>
        simp only [St.cb, St.read, Bool.or_false]
        repeat' split
        all_goals first | rfl | (cases lv <;> rfl)
      | write lv id sec =>
        simp only [St.cb, St.write, Bool.or_false]
        repeat' split
        all_goals first | rfl | (cases lv <;> rfl)
      | data lv b => cases lv <;> simp [St.cb, St.data, St.put, Level.space]
      | _ => simp [St.cb, St.alert, St.keylog]
    rw [hc, List.any_cons, Bool.or_assoc]

/-! ### Errors -/

theorem cbs_err (derives : Alg → Str → Bool) (l : List Cb) : ∀ s : St,
    (s.cbs derives l).err =
      match lastOf alertOf l none with
      | some a => some { isApp := false, code := 0x100 + a, reason := [] }
      | none => s.err := by
  have gen : ∀ (l : List Cb) (s : St) (d : Option Nat), (∀ a, d = some a → s.err = some { isApp := false, code := 0x100 + a, reason := [] }) →
      (s.cbs derives l).err =
        match lastOf alertOf l d with
        | some a => some { isApp := false, code := 0x100 + a, reason := [] }
        | none => s.err := by
    intro l
    induction l with
    | nil =>
      intro s d hd
      cases d with
      | none => rfl
      | some a => simpa [St.cbs, lastOf] using hd a rfl
    | cons c l ih =>
      intro s d hd
      rw [show s.cbs derives (c :: l) = (s.cb derives c).cbs derives l from rfl]
      have he : (∀ a, alertOf c ≠ some a) → (s.cb derives c).err = s.err := by
        intro hn
        cases c with
        | alert a => exact absurd rfl (hn a)
        | read lv id sec =>
          simp only [St.cb, St.read]
          repeat' split
          all_goals first | rfl | (cases lv <;> rfl)
        | write lv id sec =>
          simp only [St.cb, St.write]
          repeat' split
          all_goals first | rfl | (cases lv <;> rfl)
        | data lv b => cases lv <;> rfl
        | _ => rfl
      rcases ha : alertOf c with _ | a
      · have := he (by simp [ha])
        rw [ih (s.cb derives c) d (by rw [this]; exact hd)]
        simp only [lastOf, ha, this]
      · cases c <;> simp [alertOf] at ha
        subst ha
        rename_i a
        rw [ih _ (some a) (by intro a' h; simp at h; subst h; rfl)]
        simp only [lastOf, alertOf]
        have hsome : ∀ (l : List Cb) (a : Nat), ∃ b, lastOf alertOf l (some a) = some b := by
          intro l
          induction l with
          | nil => exact fun a => ⟨a, rfl⟩
          | cons c l ih =>
            intro a
            simp only [lastOf]
            cases alertOf c <;> exact ih _
        obtain ⟨b, hb⟩ := hsome l a
        rw [hb]
  intro s
  exact gen l s none (by simp)

/-- After a call of the TLS library on a connection without error: the error is the last alert, as
RFC 9001 (4.8) has it; without an alert it is an internal error if the library failed for good, and
otherwise, in `recv`, a protocol violation if the call failed at all. -/
theorem error (derives : Alg → Str → Bool) (s : St) (hs : s.err = none) (inRecv : Bool) (l : List Cb) (e : Nat) :
    (s.step derives (.call inRecv l e)).err =
      match lastOf alertOf l none with
      | some a => some { isApp := false, code := 0x100 + a, reason := [] }
      | none =>
        if e = 1 then some { isApp := false, code := 0x1, reason := [] }
        else if inRecv ∧ mapResult e = .tlsFail then some { isApp := false, code := 0xa, reason := [] }
        else none := by
  have hc := cbs_err derives l s
  simp only [St.step, hs]
  rcases ha : lastOf alertOf l none with _ | a
  · simp only [ha, hs] at hc
    simp only [St.failed, hc]
    by_cases he : e = 1
    · simp only [he, true_and, if_true, ne_eq, not_true_eq_false, if_false]
      split <;> simp [St.close]
    · simp only [he, false_and, if_false, ne_eq, not_true_eq_false]
      split
      · simp [St.close, hc]
      · exact hc
  · simp only [ha] at hc
    simp only [St.failed, hc]
    simp only [reduceCtorEq, and_false, if_false, ne_eq, not_true_eq_false]
    split
    · simp [St.close, hc]
    · exact hc

/-- Errors of the TLS library (`SSL_get_error`) after which the handshake goes on later: it waits for
data, for a lookup, a session, a certificate or its verification, a private key operation or a ticket,
or its early data was rejected. -/
inductive Waiting : Nat → Prop
  | read : Waiting 2
  | write : Waiting 3
  | lookup : Waiting 4
  | session : Waiting 11
  | certificate : Waiting 12
  | privateKey : Waiting 13
  | ticket : Waiting 14
  | rejected : Waiting 15
  | verify : Waiting 16

/-- A call gives success, says that there is nothing to do for now, or fails. -/
theorem results (e : Nat) : (mapResult e = .ok ↔ e = 0) ∧ (mapResult e = .done ↔ Waiting e) ∧
    (mapResult e = .tlsFail ↔ e ≠ 0 ∧ ¬ Waiting e) := by
  have hw : Waiting e ↔ (e = 2 ∨ e = 3 ∨ e = 4 ∨ e = 11 ∨ e = 12 ∨ e = 13 ∨ e = 14 ∨ e = 15 ∨ e = 16) := by
    constructor
    · intro h
      cases h <;> simp
    · rintro (rfl | rfl | rfl | rfl | rfl | rfl | rfl | rfl | rfl) <;> constructor
  rw [hw]
  unfold mapResult
  split
  · subst_vars; simp
  · rename_i h0
    split
    · rename_i h
      simp [h0, h]
    · rename_i h
      simp [h0, h]

/-- The first error stays: nothing that happens later changes it, and the TLS library is not called
any more. -/
theorem stays (derives : Alg → Str → Bool) (evs : List Ev) : ∀ s : St, s.err ≠ none → s.run derives evs = s := by
  induction evs with
  | nil => intro s _; rfl
  | cons e evs ih =>
    intro s h
    have hs : s.step derives e = s := by
      cases e with
      | call => simp [St.step, h]
      | close =>
        simp only [St.step, St.close]
        split
        · rfl
        · rename_i hn
          exact absurd hn h
    rw [show s.run derives (e :: evs) = (s.step derives e).run derives evs from rfl, hs]
    exact ih s h

/-- A handshake that fails while receiving closes the connection. -/
theorem closes_partial (derives : Alg → Str → Bool) (s : St) (l : List Cb) (e : Nat) (h : mapResult e = .tlsFail) :
    (s.step derives (.call true l e)).err ≠ none := by
  by_cases hs : s.err = none
  · rw [error derives s hs]
    split
    · simp
    · split
      · simp
      · simp [h]
  · simp [St.step, hs]

/-- One that fails while sending need not: `send` gives an error, and the connection stays as it is. -/
theorem closes_false : ∃ (s : St) (e : Nat), mapResult e = .tlsFail ∧ (s.step (fun _ _ => true) (.call false [] e)) = s ∧ s.err = none :=
  ⟨{ server := false }, 5, by decide +kernel, by decide +kernel, rfl⟩

/-- A handshake of a server with 0-RTT, and one that fails with an alert: the alert is the error,
though `recv` closes the connection with another. -/
example :
    let s := ({ server := true, log := some [] } : St).run (fun _ _ => true)
      [.call true [.read .zeroRtt 0x03001301 [1], .data .initial [2], .write .handshake 0x03001302 [3], .data .handshake [4, 5],
        .write .oneRtt 0x03001302 [6], .keylog [7]] 2, .call true [.read .handshake 0x03001302 [8], .read .oneRtt 0x03001302 [9]] 0]
    s.app = { opn := some ⟨.aes256, [9]⟩, opn0 := some ⟨.aes128, [1]⟩, sealing := some ⟨.aes256, [6]⟩ } ∧
    s.hs = { opn := some ⟨.aes256, [8]⟩, sealing := some ⟨.aes256, [3]⟩, out := [4, 5] } ∧ s.ini.out = [2] ∧
    s.log = some [7, 10] ∧ s.err = none := by decide +kernel
example :
    (({ server := true } : St).run (fun _ _ => true) [.call true [.alert 120] 1, .close true true 7 [1]]).err =
      some { isApp := false, code := 0x178, reason := [] } := by decide +kernel

end Verif.Props.C180
