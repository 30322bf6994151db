import Verif.Path.Links2

/-!
What receiving a datagram does: every path afterwards comes from the path in the same
slot, or is new. The relation is a parameter, so that the invariant, validation and the
accounting of bytes follow from the same analysis.
-/

namespace Verif.Path
open Verif
open Verif.Cid (Ids Err Entry Deque)

/-- The invariant of a connection. -/
structure Inv (c : Conn) : Prop where
  table : Table c.paths
  pos : 0 < c.paths.slots.length
  uids : ∀ i p, c.paths.get i = some p → p.uid < c.nextUid
  inj : ∀ i j p q, c.paths.get i = some p → c.paths.get j = some q → p.uid = q.uid → i = j
  linked : c.Linked
  server : c.paths.server = c.server

/-- What does not change. -/
structure SameConf (c c' : Conn) : Prop where
  server : c'.server = c.server
  factor : c'.factor = c.factor
  noReuse : c'.noReuse = c.noReuse
  recvMax : c'.recvMax = c.recvMax
  earlyKey : c'.earlyKey = c.earlyKey
  maxPaths : c'.paths.maxPaths = c.paths.maxPaths

theorem SameConf.refl (c : Conn) : SameConf c c := ⟨rfl, rfl, rfl, rfl, rfl, rfl⟩
theorem SameConf.trans {c c' c'' : Conn} (h1 : SameConf c c') (h2 : SameConf c' c'') : SameConf c c'' :=
  ⟨h2.1.trans h1.1, h2.2.trans h1.2, h2.3.trans h1.3, h2.4.trans h1.4, h2.5.trans h1.5, h2.6.trans h1.6⟩

structure Moves (R : Path → Path → Prop) (F : Path → Prop) (c c' : Conn) : Prop where
  inv : Inv c'
  conf : SameConf c c'
  next : c.nextUid ≤ c'.nextUid
  back : ∀ i q, c'.paths.get i = some q → (∃ p, c.paths.get i = some p ∧ R p q) ∨ (c.nextUid ≤ q.uid ∧ F q)

variable {c c' c'' : Conn}

theorem Moves.refl {R : Path → Path → Prop} {F : Path → Prop} (hR : ∀ p, R p p) (h : Inv c) : Moves R F c c :=
  ⟨h, SameConf.refl c, Nat.le_refl _, fun _ q hq => Or.inl ⟨q, hq, hR q⟩⟩

theorem Moves.comp {R S T : Path → Path → Prop} {F G H : Path → Prop} (h1 : Moves R F c c') (h2 : Moves S G c' c'')
    (hT : ∀ p q r, R p q → S q r → T p r) (hF : ∀ q r, F q → S q r → H r) (hG : ∀ q, G q → H q) (hS : ∀ p q, S p q → q.uid = p.uid) :
    Moves T H c c'' := by
  refine ⟨h2.inv, h1.conf.trans h2.conf, Nat.le_trans h1.next h2.next, ?_⟩
  intro i r hr
  rcases h2.back i r hr with ⟨q, hq, s⟩ | ⟨hu, hg⟩
  · rcases h1.back i q hq with ⟨p, hp, t⟩ | ⟨hu, hf⟩
    · exact Or.inl ⟨p, hp, hT _ _ _ t s⟩
    · exact Or.inr ⟨by rw [hS _ _ s]; exact hu, hF _ _ hf s⟩
  · exact Or.inr ⟨Nat.le_trans h1.next hu, hG _ hg⟩

theorem Moves.mono {R S : Path → Path → Prop} {F G : Path → Prop} (h : Moves R F c c') (hR : ∀ p q, R p q → S p q) (hF : ∀ p, F p → G p) :
    Moves S G c c' :=
  ⟨h.inv, h.conf, h.next, fun i q hq => (h.back i q hq).imp (fun ⟨p, hp, r⟩ => ⟨p, hp, hR _ _ r⟩) fun ⟨hu, hf⟩ => ⟨hu, hF _ hf⟩⟩

/-- A change of slots one by one. -/
theorem Moves.of_rel {R : Path → Path → Prop} {F : Path → Prop} (h : Inv c) (hr : Rel R c.paths c'.paths) (hs : ∀ p q, R p q → SameId p q)
    (hl : c'.Linked) (hc : SameConf c c') (hn : c'.nextUid = c.nextUid) : Moves R F c c' := by
  refine ⟨⟨h.table.rel hr hs, by rw [hr.len]; exact h.pos, ?_, ?_, hl, by rw [hr.server, hc.server]; exact h.server⟩, hc, by omega, ?_⟩
  · intro i q hq
    obtain ⟨p, hp, r⟩ := hr.bwd i q hq
    rw [(hs _ _ r).1, hn]; exact h.uids i p hp
  · intro i j q q' hq hq' he
    obtain ⟨p, hp, r⟩ := hr.bwd i q hq
    obtain ⟨p', hp', r'⟩ := hr.bwd j q' hq'
    exact h.inj i j p p' hp hp' (by rw [← (hs _ _ r).1, ← (hs _ _ r').1]; exact he)
  · intro i q hq
    exact Or.inl (hr.bwd i q hq)

theorem Moves.of_keeps {R : Path → Path → Prop} {F : Path → Prop} (h : Inv c) (hk : Keeps R c c') (hs : ∀ p q, R p q → SameId p q)
    (hl : c'.Linked) : Moves R F c c' := by
  obtain ⟨⟨ids, m, rfl⟩, hr⟩ := hk
  exact Moves.of_rel h hr hs hl ⟨rfl, rfl, rfl, rfl, rfl, hr.maxPaths⟩ rfl

theorem Moves.upd {R : Path → Path → Prop} {F : Path → Prop} (h : Inv c) (hR : ∀ p, R p p) (hs : ∀ p q, R p q → SameId p q) {pid : Nat}
    {f : Path → Path} (hf : ∀ p, c.paths.get pid = some p → R p (f p)) : Moves R F c { c with paths := c.paths.upd pid f } :=
  Moves.of_rel h (Rel.upd hR hf) hs (h.linked.upd pid f) ⟨rfl, rfl, rfl, rfl, rfl, rfl⟩ rfl

/-- A new path. -/
theorem Moves.insert {R : Path → Path → Prop} {F : Path → Prop} (h : Inv c) (hR : ∀ p, R p p) {p : Path} {b : Bool} {pid : Nat} {m : PathMap}
    (hu : p.uid = c.nextUid) (hnew : c.paths.fromAddrs (p.laddr, p.paddr) = none) (hF : F p) (hi : c.paths.insertPath p b = some (pid, m)) :
    Moves R F c { c with paths := m, nextUid := c.nextUid + 1 } ∧ m.get pid = some p := by
  have s := insertPath_spec h.table hnew hi
  have hlen : c.paths.slots.length ≤ m.slots.length := by rcases s.place with h | h <;> omega
  refine ⟨⟨⟨s.table, ?_, ?_, ?_, h.linked.mono hlen, s.server.trans h.server⟩, ⟨rfl, rfl, rfl, rfl, rfl, s.maxPaths⟩, by dsimp only; omega, ?_⟩, s.self⟩
  · exact Nat.lt_of_lt_of_le h.pos hlen
  · intro i q hq
    by_cases hip : i = pid
    · subst hip
      have hq : m.get i = some q := hq
      rw [s.self] at hq; cases hq; dsimp only; omega
    · have hq : m.get i = some q := hq
      rw [s.other i hip] at hq
      have := h.uids i q hq
      dsimp only; omega
  · intro i j q q' hq hq' he
    have hq : m.get i = some q := hq
    have hq' : m.get j = some q' := hq'
    by_cases hip : i = pid <;> by_cases hjp : j = pid
    · omega
    · subst hip
      rw [s.self] at hq; cases hq
      rw [s.other j hjp] at hq'
      have := h.uids j q' hq'
      omega
    · subst hjp
      rw [s.self] at hq'; cases hq'
      rw [s.other i hip] at hq
      have := h.uids i q hq
      omega
    · rw [s.other i hip] at hq
      rw [s.other j hjp] at hq'
      exact h.inj i j q q' hq hq' he
  · intro i q hq
    have hq : m.get i = some q := hq
    by_cases hip : i = pid
    · subst hip
      rw [s.self] at hq; cases hq
      exact Or.inr ⟨by omega, hF⟩
    · rw [s.other i hip] at hq
      exact Or.inl ⟨q, hq, hR q⟩

/-- How much credit each pair of addresses got. -/
abbrev Amt := Nat × Nat → Nat

namespace Amt
def zero : Amt := fun _ => 0
def one (a : Nat × Nat) (n : Nat) : Amt := fun b => if b = a then n else 0
def add (j k : Amt) : Amt := fun a => j a + k a
end Amt

/-- The relation of a path before and after, given the credit of its addresses; the data
of the PATH_RESPONSE frames received (`D`); and whether a Handshake packet was received
by a server (`V`). -/
structure Fam (R : Amt → Path → Path → Prop) (F : Amt → Path → Prop) (D : Nat → Prop) (V : Prop) : Prop where
  elem : Elem (R Amt.zero) D
  same : ∀ k p q, R k p q → SameId p q
  comp : ∀ j k p q r, R j p q → R k q r → R (j.add k) p r
  mono : ∀ j k p q, (∀ a, j a ≤ k a) → R j p q → R k p q
  fcomp : ∀ j k p q, F j p → R k p q → F (j.add k) q
  fmono : ∀ j k p, (∀ a, j a ≤ k a) → F j p → F k p
  verify : V → ∀ p, R Amt.zero p { p with verified := true }
  credit : ∀ p n, p.verified = false → R (Amt.one (p.laddr, p.paddr) n) p { p with maxSend := p.maxSend + n }
  fresh : ∀ uid l p rm n s, F (Amt.one (l, p) n) { Path.new uid l p rm false with maxSend := n, scid := s, requested := true }

variable {R : Amt → Path → Path → Prop} {F : Amt → Path → Prop} {D : Nat → Prop} {V : Prop}

theorem Amt.zero_add (k : Amt) : Amt.zero.add k = k := by funext a; simp [Amt.zero, Amt.add]
theorem Amt.add_zero (k : Amt) : k.add Amt.zero = k := by funext a; simp [Amt.zero, Amt.add]

namespace Fam

theorem moves_comp (hF : Fam R F D V) {j k : Amt} (h1 : Moves (R j) (F j) c c') (h2 : Moves (R k) (F k) c' c'') :
    Moves (R (j.add k)) (F (j.add k)) c c'' :=
  h1.comp h2 (hF.comp j k) (hF.fcomp j k) (fun q hq => hF.fmono k _ q (fun a => by simp [Amt.add]) hq) fun p q h => (hF.same k p q h).1

theorem moves_zero (hF : Fam R F D V) {k : Amt} (h1 : Moves (R k) (F k) c c') (h2 : Moves (R Amt.zero) (F Amt.zero) c' c'') :
    Moves (R k) (F k) c c'' := by have := hF.moves_comp h1 h2; rwa [Amt.add_zero] at this

theorem moves_mono (hF : Fam R F D V) {j k : Amt} (h : ∀ a, j a ≤ k a) (h1 : Moves (R j) (F j) c c') : Moves (R k) (F k) c c' :=
  h1.mono (fun p q r => hF.mono j k p q h r) fun p f => hF.fmono j k p h f

theorem refl (hF : Fam R F D V) (h : Inv c) (k : Amt) : Moves (R k) (F k) c c :=
  Moves.refl (fun p => hF.mono Amt.zero k p p (fun a => Nat.zero_le _) (hF.elem.refl p)) h

theorem keeps (hF : Fam R F D V) (h : Inv c) (hk : Keeps (R Amt.zero) c c') (hl : c'.Linked) : Moves (R Amt.zero) (F Amt.zero) c c' :=
  Moves.of_keeps h hk (hF.same Amt.zero) hl

/-- The credit a packet brings that may make a path. -/
def _root_.Verif.Path.Amt.made (pid : Option Nat) (a : Nat × Nat) (n : Nat) : Amt := if pid.isNone then Amt.one a n else Amt.zero

theorem _root_.Verif.Path.Amt.made_mono (pid : Option Nat) (a : Nat × Nat) {m n : Nat} (h : m ≤ n) (b : Nat × Nat) :
    Amt.made pid a m b ≤ Amt.made pid a n b := by
  unfold Amt.made
  split
  · unfold Amt.one; split <;> omega
  · exact Nat.le_refl _

/-- A path for a packet is found or made; only a datagram for which no path was known, in
a connection with none for its addresses, makes one. -/
theorem recvPath (hF : Fam R F D V) (h : Inv c) {pid : Option Nat} {a : Nat × Nat} {cid : Bytes} {left : Nat} {r : Conn.Res Nat}
    (ha : pid = none → c.paths.fromAddrs a = none) (hr : c.recvPath pid a cid left = some r) :
    Moves (R (Amt.made pid a (left * c.factor))) (F (Amt.made pid a (left * c.factor))) c r.2 := by
  have create : ∀ (old : Option Path) (seq : Nat), c.paths.fromAddrs a = none → c.createRecv a seq left old = some r →
      Moves (R (Amt.one a (left * c.factor))) (F (Amt.one a (left * c.factor))) c r.2 := by
    intro old seq hnone hr
    unfold Conn.createRecv at hr
    split at hr
    · cases hr
    · rename_i k m hi
      have hr := Option.some.inj hr
      obtain ⟨hm, hget⟩ := Moves.insert (p := c.newPath a seq left) (R := R (Amt.one a (left * c.factor)))
        (F := F (Amt.one a (left * c.factor))) h
        (fun p => hF.mono Amt.zero _ p p (fun _ => Nat.zero_le _) (hF.elem.refl p)) rfl hnone
        (hF.fresh c.nextUid a.1 a.2 c.recvMax _ _) hi
      subst hr
      cases old with
      | some old =>
        simp only [Conn.noteReuse]
        exact hF.moves_zero hm (hF.keeps hm.inv (Keeps.mk (ids := c.ids) (Rel.notify hF.elem.refl _ _)) hm.inv.linked)
      | none =>
        simp only [Conn.noteReuse]
        have hl : Linked m.slots.length (c.ids.linkScid seq k).2 := Linked.linkScid hm.inv.linked seq (PathMap.get_lt hget)
        split
        · rename_i heq
          rw [heq] at hl
          exact hF.moves_zero hm (hF.keeps hm.inv (Keeps.ids hF.elem.refl _ _) hl)
        · rename_i heq
          rw [heq] at hl
          exact hF.moves_zero hm (hF.keeps hm.inv (Keeps.ids hF.elem.refl _ _) hl)
  unfold Conn.recvPath at hr
  split at hr
  · cases hr; exact hF.refl h _
  · rename_i e _
    cases pid with
    | some pid =>
      have hr := Option.some.inj hr
      subst hr
      exact hF.keeps h (hF.elem.seenOn c pid e.seq cid) (h.linked.seenOn pid e.seq cid)
    | none =>
      dsimp only at hr
      split at hr
      · exact create _ _ (ha rfl) hr
      · split at hr
        · cases hr; exact hF.refl h _
        · exact create _ _ (ha rfl) hr

/-- The frames of a packet that may have PATH_RESPONSE frames. -/
def _root_.Verif.Path.Pkt.responses : Pkt → List Frame
  | .short _ fs _ => fs
  | _ => []

theorem recvSingle (hF : Fam R F D V) (h : Inv c) {pid : Option Nat} {a : Nat × Nat} {left : Nat} {pkt : Pkt} {r : Conn.Res Nat}
    (ha : pid = none → c.paths.fromAddrs a = none) (hD : ∀ d, .response d ∈ pkt.responses → D d)
    (hV : c.server = true → (∃ n, pkt = .long true n) → V) (hr : c.recvSingle pid a left pkt = some r) :
    Moves (R (Amt.made pid a (left * c.factor))) (F (Amt.made pid a (left * c.factor))) c r.2 ∧
    ∀ n, r.1 = .ok n → n = left ∨ (r.2.paths.fromAddrs a = c.paths.fromAddrs a ∧ Moves (R Amt.zero) (F Amt.zero) c r.2) := by
  have hz : ∀ {c' : Conn}, Moves (R Amt.zero) (F Amt.zero) c c' →
      Moves (R (Amt.made pid a (left * c.factor))) (F (Amt.made pid a (left * c.factor))) c c' := fun h => hF.moves_mono (fun _ => Nat.zero_le _) h
  have long : ∀ (hs early : Bool) (fs : List Frame) (nw : Bool) (x : Except Err Unit) (c' : Conn), (hs = true → ∃ n, pkt = .long true n) →
      (early = false → ∀ d, .response d ∉ fs) → c.recvLong hs early fs nw = (x, c') →
      Moves (R Amt.zero) (F Amt.zero) c c' ∧ c'.paths.fromAddrs a = c.paths.fromAddrs a := by
    intro hs early fs nw x c' hv hd heq
    have k := hF.elem.recvLong c hs early fs nw (fun hsv hhs => hF.verify (hV hsv (hv hhs)))
      (fun he d hm => absurd hm (hd he d))
    have hl := h.linked.recvLong hs early fs nw
    rw [heq] at k hl
    refine ⟨hF.keeps h k hl, ?_⟩
    have := k.2.addrs
    unfold PathMap.fromAddrs
    rw [this]
  cases pkt with
  | long hs size =>
    simp only [Conn.recvSingle] at hr
    split at hr
    · rename_i heq
      cases hr
      obtain ⟨h1, h2⟩ := long hs false _ _ _ _ (fun h => ⟨size, by rw [h]⟩) (by simp) heq
      exact ⟨hz h1, fun n hn => by cases hn⟩
    · rename_i heq
      cases hr
      obtain ⟨h1, h2⟩ := long hs false _ _ _ _ (fun h => ⟨size, by rw [h]⟩) (by simp) heq
      exact ⟨hz h1, fun n _ => Or.inr ⟨h2, h1⟩⟩
  | early fs nw size =>
    simp only [Conn.recvSingle] at hr
    split at hr
    · split at hr
      · rename_i heq
        cases hr
        obtain ⟨h1, h2⟩ := long false true _ _ _ _ (fun h => by cases h) (fun h => by cases h) heq
        exact ⟨hz h1, fun n hn => by cases hn⟩
      · rename_i heq
        cases hr
        obtain ⟨h1, h2⟩ := long false true _ _ _ _ (fun h => by cases h) (fun h => by cases h) heq
        exact ⟨hz h1, fun n _ => Or.inr ⟨h2, h1⟩⟩
    · split at hr
      · cases hr
        have : Moves (R Amt.zero) (F Amt.zero) c
            { c with kept := c.kept ++ [{ addr := a, frames := fs, newest := nw, size := size }] } :=
          Moves.of_rel h (Rel.refl hF.elem.refl _) (hF.same _) h.linked ⟨rfl, rfl, rfl, rfl, rfl, rfl⟩ rfl
        exact ⟨hz this, fun n _ => Or.inr ⟨rfl, this⟩⟩
      · cases hr
  | short cid fs nw =>
    simp only [Conn.recvSingle] at hr
    split at hr
    · cases hr
    · rename_i e c1 heq
      cases hr
      exact ⟨hF.recvPath h ha heq, fun n hn => by cases hn⟩
    · rename_i k c1 heq
      have h1 := hF.recvPath h ha heq
      have k2 := hF.elem.process c1 k cid false fs nw fun _ d hd => hD d hd
      have hl := Conn.Linked.process (c := c1) h1.inv.linked k cid false fs nw
      split at hr
      · rename_i heq2
        rw [heq2] at k2 hl
        cases hr
        exact ⟨hF.moves_zero h1 (hF.keeps h1.inv k2 hl), fun n hn => by cases hn⟩
      · rename_i heq2
        rw [heq2] at k2 hl
        cases hr
        exact ⟨hF.moves_zero h1 (hF.keeps h1.inv k2 hl), fun n hn => by cases hn; exact Or.inl rfl⟩

theorem recvLoop (hF : Fam R F D V) (h : Inv c) {pid : Option Nat} {a : Nat × Nat} {left : Nat} {pkts : List Pkt}
    (ha : pid = none → c.paths.fromAddrs a = none) (hD : ∀ pkt ∈ pkts, ∀ d, .response d ∈ pkt.responses → D d)
    (hV : c.server = true → (∃ n, .long true n ∈ pkts) → V) :
    Moves (R (Amt.made pid a (left * c.factor))) (F (Amt.made pid a (left * c.factor))) c (c.recvLoop pid a left pkts).2 := by
  induction pkts generalizing c left with
  | nil => exact hF.refl h _
  | cons pkt l ih =>
    simp only [Conn.recvLoop]
    split
    · exact hF.refl h _
    · rename_i hleft
      split
      · exact hF.refl h _
      · rename_i e c1 heq
        have h1 := (hF.recvSingle h ha (fun d hd => hD pkt List.mem_cons_self d hd)
          (fun hs ⟨n, hn⟩ => hV hs ⟨n, by rw [hn]; exact List.mem_cons_self⟩) heq).1
        refine hF.moves_zero h1 (Moves.of_rel h1.inv (Rel.refl hF.elem.refl _) (hF.same _) h1.inv.linked ⟨rfl, rfl, rfl, rfl, rfl, rfl⟩ rfl)
      · rename_i n c1 heq
        have h1 := hF.recvSingle h ha (fun d hd => hD pkt List.mem_cons_self d hd)
          (fun hs ⟨n, hn⟩ => hV hs ⟨n, by rw [hn]; exact List.mem_cons_self⟩) heq
        rcases h1.2 n rfl with hn | ⟨haddr, hzero⟩
        · subst hn
          rw [Nat.sub_self]
          have : c1.recvLoop pid a 0 l = (false, c1) := by
            cases l with
            | nil => rfl
            | cons x l => simp only [Conn.recvLoop]; rw [if_pos (Or.inr trivial)]
          rw [this]
          exact h1.1
        · have haddr : c1.paths.fromAddrs a = c.paths.fromAddrs a := haddr
          have h2 := ih (left := left - n) hzero.inv (fun hp => by rw [haddr]; exact ha hp) (fun p hp => hD p (List.mem_cons_of_mem _ hp))
            (fun hs ⟨m, hm⟩ => hV (by rw [← hzero.conf.server]; exact hs) ⟨m, List.mem_cons_of_mem _ hm⟩)
          have hf : c1.factor = c.factor := hzero.conf.factor
          rw [hf] at h2
          have h3 := hF.moves_comp hzero h2
          rw [Amt.zero_add] at h3
          exact hF.moves_mono (Amt.made_mono pid a (Nat.mul_le_mul_right _ (Nat.sub_le _ _))) h3

theorem recvOne (hF : Fam R F D V) (h : Inv c) {a : Nat × Nat} {len : Nat} {pkts : List Pkt}
    (hD : ∀ pkt ∈ pkts, ∀ d, .response d ∈ pkt.responses → D d) (hV : c.server = true → (∃ n, .long true n ∈ pkts) → V) :
    Moves (R (Amt.one a (len * c.factor))) (F (Amt.one a (len * c.factor))) c (c.recvOne a len pkts).2 := by
  unfold Conn.recvOne
  split
  · exact hF.refl h _
  · split
    · rename_i pid hpid
      split
      · exact hF.refl h _
      · rename_i p hp
        have hc : Moves (R (Amt.one a (len * c.factor))) (F (Amt.one a (len * c.factor))) c (c.credit pid len) := by
          unfold Conn.credit
          refine Moves.upd h (fun p => hF.mono Amt.zero _ p p (fun _ => Nat.zero_le _) (hF.elem.refl p)) (hF.same _) fun q hq => ?_
          split
          · rename_i hv
            obtain ⟨q', hq', haddr⟩ := (h.table.addrs a pid).mp hpid
            rw [hq] at hq'
            have hq' := Option.some.inj hq'
            subst hq'
            have := hF.credit q (len * c.factor) hv.2
            rw [haddr] at this
            exact this
          · exact hF.mono Amt.zero _ q q (fun _ => Nat.zero_le _) (hF.elem.refl q)
        have h2 := hF.recvLoop (pid := some pid) (a := a) (left := len) (pkts := pkts) hc.inv (fun h => by cases h) hD
          (fun hs => hV (by rw [← hc.conf.server]; exact hs))
        exact hF.moves_zero hc h2
    · rename_i hnone
      split
      · exact hF.recvLoop (pid := none) h (fun _ => hnone) hD hV
      · exact hF.refl h _

/-- The credit for packets kept that are processed again. -/
def _root_.Verif.Path.Amt.again (factor : Nat) : List Kept → Amt
  | [] => Amt.zero
  | k :: l => (Amt.one k.addr (k.size * factor)).add (Amt.again factor l)

theorem replay (hF : Fam R F D V) (h : Inv c) (l : List Kept) : Moves (R (Amt.again c.factor l)) (F (Amt.again c.factor l)) c (c.replay l) := by
  induction l generalizing c with
  | nil => exact hF.refl h _
  | cons k l ih =>
    simp only [Conn.replay]
    have h1 := hF.recvOne (a := k.addr) (len := k.size) (pkts := [.early k.frames k.newest k.size]) h
      (fun pkt hp d hd => by rw [List.mem_singleton.mp hp] at hd; cases hd)
      (fun _ ⟨n, hn⟩ => by cases List.mem_singleton.mp hn)
    split
    · rename_i heq
      rw [heq] at h1
      exact hF.moves_mono (fun a => by simp [Amt.again, Amt.add]) h1
    · rename_i heq
      rw [heq] at h1
      have h2 := ih h1.inv
      have hf := h1.conf.factor
      dsimp only at hf h2
      rw [hf] at h2
      exact hF.moves_comp h1 h2

/-- The credit when the packets kept are processed. -/
def _root_.Verif.Path.Conn.againAmt (c : Conn) : Amt := if c.earlyKey then Amt.again c.factor c.kept else Amt.zero

theorem flush (hF : Fam R F D V) (h : Inv c) : Moves (R c.againAmt) (F c.againAmt) c c.flush := by
  unfold Conn.flush Conn.againAmt
  split
  · have h0 : Moves (R Amt.zero) (F Amt.zero) c { c with kept := [] } :=
      Moves.of_rel h (Rel.refl hF.elem.refl _) (hF.same _) h.linked ⟨rfl, rfl, rfl, rfl, rfl, rfl⟩ rfl
    have := hF.moves_comp h0 (hF.replay h0.inv c.kept)
    rw [Amt.zero_add] at this
    exact this
  · exact hF.refl h _

theorem recv (hF : Fam R F D V) (h : Inv c) {a : Nat × Nat} {len : Nat} {pkts : List Pkt}
    (hD : ∀ pkt ∈ pkts, ∀ d, .response d ∈ pkt.responses → D d) (hV : c.server = true → (∃ n, .long true n ∈ pkts) → V) :
    Moves (R ((Amt.one a (len * c.factor)).add (c.recvOne a len pkts).2.againAmt))
      (F ((Amt.one a (len * c.factor)).add (c.recvOne a len pkts).2.againAmt)) c (c.recv a len pkts) := by
  have h1 := hF.recvOne (a := a) (len := len) h hD hV
  unfold Conn.recv
  split
  · rename_i heq
    rw [heq] at h1
    exact hF.moves_mono (fun a => by simp [Amt.add]) h1
  · rename_i heq
    rw [heq] at h1
    rw [heq]
    exact hF.moves_comp h1 (hF.flush h1.inv)

end Fam

theorem True.elem : Elem (fun _ _ => True) (fun _ => True) := by constructor <;> intros <;> trivial

theorem Keeps.kept {R : Path → Path → Prop} (h : Keeps R c c') : c'.kept = c.kept ∧ c'.earlyKey = c.earlyKey := by
  obtain ⟨⟨i, m, rfl⟩, _⟩ := h; exact ⟨rfl, rfl⟩

theorem noteReuse_kept (c : Conn) (pid seq : Nat) (a : Nat × Nat) (old : Option Path) : (c.noteReuse pid seq a old).2.kept = c.kept ∧
    (c.noteReuse pid seq a old).2.earlyKey = c.earlyKey := by
  cases old with
  | some old => exact ⟨rfl, rfl⟩
  | none => simp only [Conn.noteReuse]; split <;> exact ⟨rfl, rfl⟩

theorem recvPath_kept {pid : Option Nat} {a : Nat × Nat} {cid : Bytes} {left : Nat} {r : Conn.Res Nat} (hr : c.recvPath pid a cid left = some r) :
    r.2.kept = c.kept ∧ r.2.earlyKey = c.earlyKey := by
  have create : ∀ (old : Option Path) (seq : Nat), c.createRecv a seq left old = some r → r.2.kept = c.kept ∧ r.2.earlyKey = c.earlyKey := by
    intro old seq hr
    unfold Conn.createRecv at hr
    split at hr
    · cases hr
    · have hr := Option.some.inj hr
      rw [← hr]
      exact noteReuse_kept _ _ _ _ _
  unfold Conn.recvPath at hr
  split at hr
  · cases hr; exact ⟨rfl, rfl⟩
  · rename_i e _
    cases pid with
    | some pid =>
      have hr := Option.some.inj hr
      rw [← hr]
      exact (True.elem.seenOn c pid e.seq cid).kept
    | none =>
      dsimp only at hr
      split at hr
      · exact create _ _ hr
      · split at hr
        · cases hr; exact ⟨rfl, rfl⟩
        · exact create _ _ hr

theorem recvLong_kept (c : Conn) (hs early : Bool) (fs : List Frame) (nw : Bool) :
    (c.recvLong hs early fs nw).2.kept = c.kept ∧ (c.recvLong hs early fs nw).2.earlyKey = c.earlyKey :=
  (True.elem.recvLong c hs early fs nw (fun _ _ _ => trivial) fun _ _ _ => trivial).kept

theorem recvSingle_kept (hk : c.earlyKey = true) {pid : Option Nat} {a : Nat × Nat} {left : Nat} {pkt : Pkt} {r : Conn.Res Nat}
    (hr : c.recvSingle pid a left pkt = some r) : r.2.kept = c.kept ∧ r.2.earlyKey = c.earlyKey := by
  cases pkt with
  | long hs size =>
    simp only [Conn.recvSingle] at hr
    have := recvLong_kept c hs false [.other] true
    split at hr <;> (rename_i heq; rw [heq] at this; cases hr; exact this)
  | early fs nw size =>
    simp only [Conn.recvSingle] at hr
    rw [if_pos hk] at hr
    have := recvLong_kept c false true fs nw
    split at hr <;> (rename_i heq; rw [heq] at this; cases hr; exact this)
  | short cid fs nw =>
    simp only [Conn.recvSingle] at hr
    split at hr
    · cases hr
    · rename_i heq
      cases hr
      have := recvPath_kept heq
      exact this
    · rename_i k c1 heq
      have h1 := recvPath_kept heq
      have h2 := (True.elem.process c1 k cid false fs nw fun _ _ _ => trivial).kept
      split at hr <;> (rename_i heq2; rw [heq2] at h2; cases hr; exact ⟨h2.1.trans h1.1, h2.2.trans h1.2⟩)

theorem recvLoop_kept (hk : c.earlyKey = true) (pid : Option Nat) (a : Nat × Nat) (left : Nat) (pkts : List Pkt) :
    (c.recvLoop pid a left pkts).2.kept = c.kept := by
  induction pkts generalizing c left with
  | nil => rfl
  | cons pkt l ih =>
    simp only [Conn.recvLoop]
    split
    · rfl
    · split
      · rfl
      · rename_i heq; exact (recvSingle_kept hk heq).1
      · rename_i heq
        have := recvSingle_kept hk heq
        exact (ih (this.2.trans hk) _).trans this.1

/-- When the 0-RTT key is known, a datagram adds nothing to the packets kept. -/
theorem recvOne_kept (hk : c.earlyKey = true) (a : Nat × Nat) (len : Nat) (pkts : List Pkt) : (c.recvOne a len pkts).2.kept = c.kept := by
  unfold Conn.recvOne
  split
  · rfl
  · split
    · split
      · rfl
      · exact recvLoop_kept (c := c.credit _ len) hk _ _ _ _
    · split
      · exact recvLoop_kept hk _ _ _ _
      · rfl

end Verif.Path
