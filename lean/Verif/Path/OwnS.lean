import Verif.Path.Own

/-!
An invariant about the source connection IDs of paths: each path's own is stored and linked
to it, if each connection ID is used from one address only and there are no more addresses
than paths allowed.
-/

namespace Verif.Path
open Verif
open Verif.Cid (Ids Err Entry Deque keys)

variable {c c' c'' : Conn}

/-- A change that leaves the addresses and the source connection ID of a path. -/
def SameS (p q : Path) : Prop := SameId p q ∧ q.scid = p.scid

namespace SameS

theorem refl (p : Path) : SameS p p := ⟨⟨rfl, rfl, rfl⟩, rfl⟩
theorem trans (p q r : Path) (h1 : SameS p q) (h2 : SameS q r) : SameS p r := ⟨h1.1.trans h2.1, Eq.trans h2.2 h1.2⟩

theorem promote (p : Path) (s : PState) : SameS p (p.promote s) := by
  obtain ⟨s', h⟩ := p.promote_frame s
  rw [h]; exact ⟨⟨rfl, rfl, rfl⟩, rfl⟩

theorem answer_scid (p : Path) (d : Nat) : (p.answer d).scid = p.scid := by
  unfold Path.answer
  dsimp only
  exact (promote { p with verified := true, probingLost := 0, inFlight := p.inFlight.filter (·.data != d) } .validatingMtu).2

theorem resp (p : Path) (d : Nat) : SameS p (p.onResponse d).2 := by
  refine ⟨SameId.onResponse p d, ?_⟩
  unfold Path.onResponse
  dsimp only
  have h := answer_scid p d
  split
  · split
    · exact (promote (p.answer d) .validated).2.trans h
    · exact h
  · exact h

theorem timeout (p : Path) (now rtt : Nat) (s : Bool) : SameS p (p.onTimeout now rtt s) := by
  refine ⟨SameId.onTimeout p now rtt s, ?_⟩
  unfold Path.onTimeout
  dsimp only
  split
  · rfl
  · rename_i c _
    have h : (Path.countLost { p with inFlight := p.inFlight.filter fun c => !decide (c.time ≤ now) } c.time rtt).scid = p.scid := by
      unfold Path.countLost
      split
      · split <;> rfl
      · rfl
    split
    · exact h
    · exact h

theorem start (p : Path) : SameS p p.startMigrating := by
  unfold Path.startMigrating Path.request
  dsimp only
  split <;> exact ⟨⟨rfl, rfl, rfl⟩, rfl⟩

theorem sent (p : Path) (o : Conn.Out) (now : Nat) : SameS p (Conn.sent p o now) := by
  refine ⟨SameId.sent p o now, ?_⟩
  unfold Conn.sent
  dsimp only
  have h1 : (if o.short = true then { p with received := p.received.drop o.responses } else p).scid = p.scid := by
    split <;> rfl
  generalize (if o.short = true then { p with received := p.received.drop o.responses } else p) = q at h1
  split
  · rename_i d _
    unfold Path.addChallenge
    dsimp only
    exact (promote q .validating).2.trans h1
  · exact h1

theorem sentAll (p : Path) (os : List Conn.Out) (now : Nat) : SameS p (p.sentAll os now) := by
  unfold Path.sentAll
  induction os generalizing p with
  | nil => exact refl p
  | cons o l ih => exact trans _ _ _ (sent p o now) (ih _)

theorem quiet : Quiet SameS (fun _ => True) where
  refl := refl
  trans := trans
  same _ _ h := h.1
  fcomp _ _ _ _ := trivial
  dcid _ _ := ⟨⟨rfl, rfl, rfl⟩, rfl⟩
  act _ _ := ⟨⟨rfl, rfl, rfl⟩, rfl⟩
  start p _ := start p
  request _ := ⟨⟨rfl, rfl, rfl⟩, rfl⟩
  timeout := timeout
  notified _ := ⟨⟨rfl, rfl, rfl⟩, rfl⟩
  fresh _ _ _ _ _ := trivial

theorem onResponse {m m' : PathMap} {d : Nat} (h : m.onResponse d = .ok m') : Rel SameS m m' := by
  unfold PathMap.onResponse at h
  split at h
  · cases h
  · rename_i active _
    split at h
    · cases h; exact Rel.refl refl _
    · rename_i pid hf
      split at h
      · cases h; exact Rel.refl refl _
      · rename_i p hp
        have h1 : Rel SameS m (m.upd pid fun p => (p.onResponse d).2) := Rel.upd refl fun q _ => resp q d
        dsimp only at h
        cases h
        split
        · unfold PathMap.announce
          dsimp only
          have h2 := (h1.trans trans (Rel.upd (pid := pid) (f := fun p => { p with migrating := false }) refl
            fun p _ => ⟨⟨rfl, rfl, rfl⟩, rfl⟩)).trans trans
            (Rel.notify refl _ (.validated (p.onResponse d).2.laddr (p.onResponse d).2.paddr))
          split
          · exact h2.trans trans (Rel.notify refl _ _)
          · exact h2
        · exact h1

end SameS

/-- A change that has nothing to do with source connection IDs or addresses. -/
structure Still (c c' : Conn) : Prop where
  scids : c'.ids.scids.inner = c.ids.scids.inner
  zero : c'.ids.zeroLenScid = c.ids.zeroLenScid
  next : c'.ids.nextScidSeq = c.ids.nextScidSeq
  closed : c.closed = true → c'.closed = true
  rel : Rel SameS c.paths c'.paths

namespace Still

theorem refl (c : Conn) : Still c c := ⟨rfl, rfl, rfl, fun h => h, Rel.refl SameS.refl _⟩

theorem trans (h1 : Still c c') (h2 : Still c' c'') : Still c c'' :=
  ⟨h2.1.trans h1.1, h2.2.trans h1.2, h2.3.trans h1.3, fun h => h2.4 (h1.4 h), h1.rel.trans SameS.trans h2.rel⟩

theorem paths {m : PathMap} (h : Rel SameS c.paths m) : Still c { c with paths := m } := ⟨rfl, rfl, rfl, fun h => h, h⟩

theorem upd {pid : Nat} {f : Path → Path} (hf : ∀ p, SameS p (f p)) : Still c { c with paths := c.paths.upd pid f } :=
  paths (Rel.upd SameS.refl fun p _ => hf p)

theorem dcid (c : Conn) (pid : Nat) (o : Option Nat) : Still c { c with paths := c.paths.upd pid fun p => { p with dcid := o } } :=
  upd fun _ => ⟨⟨rfl, rfl, rfl⟩, rfl⟩

theorem ids {i : Ids} (h1 : i.scids.inner = c.ids.scids.inner) (h2 : i.zeroLenScid = c.ids.zeroLenScid) (h3 : i.nextScidSeq = c.ids.nextScidSeq) :
    Still c { c with ids := i } := ⟨h1, h2, h3, fun h => h, Rel.refl SameS.refl _⟩

theorem linkDcid (c : Conn) (n pid : Nat) : Still c { c with ids := (c.ids.linkDcid n pid).2 } := by
  unfold Ids.linkDcid
  split <;> exact ids rfl rfl rfl

theorem linkDcid' {c : Conn} {n pid : Nat} {r : Except Err Unit} {i : Ids} (h : c.ids.linkDcid n pid = (r, i)) : Still c { c with ids := i } := by
  have := linkDcid c n pid
  rw [h] at this
  exact this

theorem markRetire (c : Conn) (n : Nat) (b : Bool) : Still c { c with ids := (c.ids.markRetire n b).2 } := by
  unfold Ids.markRetire
  split
  · split <;> exact ids rfl rfl rfl
  · exact ids rfl rfl rfl

theorem markAdvertise (c : Conn) (n : Nat) (b : Bool) : Still c { c with ids := c.ids.markAdvertise n b } := by
  unfold Ids.markAdvertise
  split <;> exact ids rfl rfl rfl

theorem newDcid (c : Conn) (cid : Bytes) (seq token rpt : Nat) : Still c { c with ids := (c.ids.newDcid cid seq token rpt).2.2 } := by
  have note : ∀ s : Ids, (s.noteSeq seq).scids = s.scids ∧ (s.noteSeq seq).zeroLenScid = s.zeroLenScid ∧ (s.noteSeq seq).nextScidSeq = s.nextScidSeq := by
    intro s; unfold Ids.noteSeq; split <;> exact ⟨rfl, rfl, rfl⟩
  have ins : ∀ (s : Ids) (e : Entry) (err : Option Err), (s.insertDcid e err).2.scids = s.scids ∧ (s.insertDcid e err).2.zeroLenScid = s.zeroLenScid ∧
      (s.insertDcid e err).2.nextScidSeq = s.nextScidSeq := by
    intro s e err
    unfold Ids.insertDcid
    split
    · exact ⟨rfl, rfl, rfl⟩
    · dsimp only; split <;> exact ⟨rfl, rfl, rfl⟩
  unfold Ids.newDcid
  split
  · exact refl c
  · split
    · split <;> exact refl c
    · split
      · exact refl c
      · split
        · exact markRetire c seq true
        · obtain ⟨n1, n2, n3⟩ := note c.ids
          dsimp only
          split
          · obtain ⟨i1, i2, i3⟩ := ins { c.ids.noteSeq seq with
              dcids := { (c.ids.noteSeq seq).dcids with inner := (c.ids.noteSeq seq).dcids.inner.filter fun e => !decide (e.seq < rpt) }
              retire := (Ids.retireAll ((c.ids.noteSeq seq).dcids.inner.filter (·.seq < rpt)) (c.ids.noteSeq seq).retire none).1
              peerRetirePriorTo := rpt } { cid := cid, seq := seq, token := some token, path := none }
                (Ids.retireAll ((c.ids.noteSeq seq).dcids.inner.filter (·.seq < rpt)) (c.ids.noteSeq seq).retire none).2
            exact ids (by rw [i1]; dsimp only; rw [n1]) (i2.trans n2) (i3.trans n3)
          · obtain ⟨i1, i2, i3⟩ := ins (c.ids.noteSeq seq) { cid := cid, seq := seq, token := some token, path := none } none
            exact ids (by rw [i1, n1]) (i2.trans n2) (i3.trans n3)

theorem repath (c : Conn) (l : List (Nat × Nat)) : Still c (c.repath l).2 := by
  induction l generalizing c with
  | nil => exact refl c
  | cons x l ih =>
    obtain ⟨seq, pid⟩ := x
    simp only [Conn.repath]
    split
    · exact refl c
    · split
      · exact ih c
      · split
        · rename_i n _
          have h1 := dcid c pid (some n)
          split
          · rename_i heq; exact h1.trans (linkDcid' (c := { c with paths := c.paths.upd pid fun p => { p with dcid := some n } }) heq)
          · rename_i heq
            exact (h1.trans (linkDcid' (c := { c with paths := c.paths.upd pid fun p => { p with dcid := some n } }) heq)).trans (ih _)
        · exact (dcid c pid none).trans (ih _)

theorem onNewCid (c : Conn) (cid : Bytes) (seq token rpt : Nat) : Still c (c.onNewCid cid seq token rpt).2 := by
  unfold Conn.onNewCid
  split
  · exact refl c
  · dsimp only
    have h := (newDcid c cid seq token rpt).trans (repath _ (c.ids.newDcid cid seq token rpt).2.1)
    split
    · rename_i heq; rw [heq] at h; exact h
    · rename_i heq; rw [heq] at h; exact h

theorem give {c : Conn} {n pid : Nat} {r : Except Err Unit} {i : Ids} (h : c.ids.linkDcid n pid = (r, i)) :
    Still c { c with ids := i, paths := c.paths.upd pid fun p => { p with dcid := some n } } :=
  (linkDcid' h).trans (dcid { c with ids := i } pid (some n))

theorem allocate (c : Conn) (l : List Nat) : Still c (c.allocate l).2 := by
  induction l generalizing c with
  | nil => exact refl c
  | cons pid l ih =>
    simp only [Conn.allocate]
    split
    · exact ih c
    · split
      · exact ih c
      · split
        · exact (dcid c pid (some 0)).trans (ih _)
        · split
          · exact refl c
          · split
            · rename_i heq; exact linkDcid' heq
            · rename_i heq; exact (give heq).trans (ih _)

theorem setActive (c : Conn) (pid : Nat) : Still c (c.setActive pid).2 := paths (SameS.quiet.mapSetActive c.paths pid)

theorem migration (c : Conn) (pid : Nat) (newest : Bool) : Still c (c.migration pid newest).2 := by
  have reuse : ∀ (c : Conn) (old new : Nat), Still c (c.reuseDcid old new).2 := by
    intro c old new
    unfold Conn.reuseDcid
    split
    · exact refl c
    · split
      · split
        · exact refl c
        · exact dcid c new _
      · exact refl c
  unfold Conn.migration
  split
  · exact refl c
  · split
    · unfold Conn.onPeerMigrated
      split
      · exact refl c
      · split
        · exact refl c
        · have h := setActive c pid
          split
          · rename_i heq; rw [heq] at h; exact h
          · rename_i heq
            rw [heq] at h
            exact h.trans (reuse _ _ _)
    · exact refl c

theorem onTimeout (c : Conn) (now : Nat) (due : List (Nat × Nat)) : Still c (c.onTimeout now due) := by
  have exp : ∀ (l : List (Nat × Nat)) (c : Conn), Still c (c.expire now l) := by
    intro l
    induction l with
    | nil => exact refl
    | cons x l ih =>
      intro c
      obtain ⟨pid, rtt⟩ := x
      simp only [Conn.expire]
      exact (upd fun p => SameS.timeout p now rtt c.server).trans (ih _)
  have cl : ∀ c : Conn, Still c { c with closed := true } := fun c => ⟨rfl, rfl, rfl, fun _ => rfl, Rel.refl SameS.refl _⟩
  unfold Conn.onTimeout
  dsimp only
  refine ((exp due c).trans (paths (SameS.quiet.notifyFailed _))).trans ?_
  unfold Conn.fallback
  split
  · exact refl _
  · split
    · exact cl _
    · rename_i pid _
      have h := setActive { c.expire now due with paths := (c.expire now due).paths.notifyFailed } pid
      split
      · rename_i heq; rw [heq] at h; exact h.trans (cl _)
      · rename_i heq; rw [heq] at h; exact h

theorem takeDcid (c : Conn) (pid : Nat) (p : Path) : Still c (c.takeDcid pid p).2 := by
  unfold Conn.takeDcid
  split
  · exact refl c
  · split
    · exact refl c
    · split
      · exact refl c
      · split
        · rename_i heq; exact linkDcid' heq
        · rename_i heq; exact give heq

theorem retireDcid (c : Conn) (seq : Nat) : Still c (c.retireDcid seq).2 := by
  have hr : ∀ r i, c.ids.retireDcid seq = (r, i) → Still c { c with ids := i } := by
    intro r i h
    have : i = (c.ids.retireDcid seq).2 := by rw [h]
    rw [this]
    unfold Ids.retireDcid
    split
    · exact refl c
    · split
      · exact refl c
      · exact ids rfl rfl rfl
      · rename_i d _
        have h1 := markRetire { c with ids := { c.ids with dcids := d } } seq true
        split
        · rename_i heq
          have heq : ({ c.ids with dcids := d } : Ids).markRetire seq true = _ := heq
          dsimp only at h1
          rw [heq] at h1
          exact (ids (i := { c.ids with dcids := d }) rfl rfl rfl).trans h1
        · rename_i heq
          have heq : ({ c.ids with dcids := d } : Ids).markRetire seq true = _ := heq
          dsimp only at h1
          rw [heq] at h1
          exact (ids (i := { c.ids with dcids := d }) rfl rfl rfl).trans h1
  have rep : ∀ (c : Conn) (pid : Nat), Still c (c.replaceDcid pid).2 := by
    intro c pid
    unfold Conn.replaceDcid
    split
    · exact refl c
    · split
      · exact dcid c pid none
      · split
        · rename_i heq; exact linkDcid' heq
        · rename_i heq; exact give heq
  unfold Conn.retireDcid
  split
  · exact refl c
  · split
    · exact refl c
    · split
      · exact refl c
      · split
        · rename_i heq; exact hr _ _ heq
        · rename_i heq; exact hr _ _ heq
        · rename_i heq; exact (hr _ _ heq).trans (rep _ _)

end Still

/-- The addresses of a path. -/
def Path.addr (p : Path) : Nat × Nat := (p.laddr, p.paddr)

/-- Every path's source connection ID is stored and linked to it; a connection ID is linked
to the path of the address it is used from (`f`), and all addresses are in `A`. -/
structure OwnS (f : Bytes → Nat × Nat) (A : List (Nat × Nat)) (c : Conn) : Prop where
  nz : c.ids.zeroLenScid = false
  nodup : (keys c.ids.scids.inner).Nodup
  fresh : ∀ e ∈ c.ids.scids.inner, e.seq < c.ids.nextScidSeq
  own : ∀ pid p s, c.paths.get pid = some p → p.scid = some s → ∃ e ∈ c.ids.scids.inner, e.seq = s ∧ e.path = some pid
  link : ∀ e ∈ c.ids.scids.inner, ∀ pid, e.path = some pid → ∃ p, c.paths.get pid = some p ∧ p.addr = f e.cid
  addrs : ∀ pid p, c.paths.get pid = some p → p.addr ∈ A
  table : Table c.paths
  room : A.length ≤ c.paths.maxPaths

variable {f : Bytes → Nat × Nat} {A : List (Nat × Nat)}

theorem SameS.addr {p q : Path} (h : SameS p q) : q.addr = p.addr := by
  unfold Path.addr; rw [h.1.2.1, h.1.2.2]

theorem OwnS.still (h : OwnS f A c) (hs : Still c c') : OwnS f A c' := by
  refine ⟨by rw [hs.zero]; exact h.nz, by rw [hs.scids]; exact h.nodup, by rw [hs.scids, hs.next]; exact h.fresh, ?_, ?_, ?_,
    h.table.rel hs.rel fun _ _ r => r.1, by rw [hs.rel.maxPaths]; exact h.room⟩
  · intro pid q s hq hsc
    obtain ⟨p, hp, r⟩ := hs.rel.bwd pid q hq
    rw [hs.scids]
    exact h.own pid p s hp (r.2 ▸ hsc)
  · intro e he pid hep
    rw [hs.scids] at he
    obtain ⟨p, hp, ha⟩ := h.link e he pid hep
    obtain ⟨q, hq, r⟩ := hs.rel.fwd pid p hp
    exact ⟨q, hq, by rw [r.addr]; exact ha⟩
  · intro pid q hq
    obtain ⟨p, hp, r⟩ := hs.rel.bwd pid q hq
    rw [r.addr]
    exact h.addrs pid p hp

/-- The invariant of an open connection. -/
def KeptS (f : Bytes → Nat × Nat) (A : List (Nat × Nat)) (c : Conn) : Prop := c.closed = true ∨ OwnS f A c

theorem KeptS.still (h : KeptS f A c) (hs : Still c c') : KeptS f A c' := h.imp hs.closed fun h => h.still hs

/-- Two paths do not have the same addresses. -/
theorem OwnS.inj (h : OwnS f A c) {i j : Nat} {p q : Path} (hp : c.paths.get i = some p) (hq : c.paths.get j = some q) (ha : p.addr = q.addr) :
    i = j := by
  have h1 := (h.table.addrs p.addr i).mpr ⟨p, hp, rfl⟩
  have h2 := (h.table.addrs p.addr j).mpr ⟨q, hq, ha.symm⟩
  rw [h1] at h2
  exact Option.some.inj h2

theorem inj_le {X : Type} [BEq X] [LawfulBEq X] (n : Nat) (l : List X) (g : Nat → X) (h1 : ∀ i, i < n → g i ∈ l)
    (h2 : ∀ i j, i < n → j < n → g i = g j → i = j) : n ≤ l.length := by
  induction n generalizing l with
  | zero => exact Nat.zero_le _
  | succ n ih =>
    have hm := h1 n (Nat.lt_succ_self n)
    have := ih (l.erase (g n)) (fun i hi => (List.mem_erase_of_ne (fun he => by
      have := h2 i n (by omega) (by omega) he; omega)).mpr (h1 i (by omega))) fun i j hi hj => h2 i j (by omega) (by omega)
    rw [List.length_erase_of_mem hm] at this
    have := List.length_pos_of_mem hm
    omega

/-- There is room for a path to another address. -/
theorem OwnS.space (h : OwnS f A c) {a : Nat × Nat} (ha : a ∈ A) (hn : c.paths.fromAddrs a = none) : c.paths.slots.length < c.paths.maxPaths := by
  have hg : ∀ i, i < c.paths.slots.length → ∃ p, c.paths.get i = some p ∧ ((c.paths.get i).map Path.addr).getD (0, 0) = p.addr := by
    intro i hi
    obtain ⟨p, hp⟩ := h.table.all i hi
    exact ⟨p, hp, by rw [hp]; rfl⟩
  have := inj_le c.paths.slots.length (A.erase a) (fun i => ((c.paths.get i).map Path.addr).getD (0, 0)) (fun i hi => by
      obtain ⟨p, hp, he⟩ := hg i hi
      rw [he]
      refine (List.mem_erase_of_ne fun hpa => ?_).mpr (h.addrs i p hp)
      have := (h.table.addrs a i).mpr ⟨p, hp, hpa⟩
      rw [hn] at this
      cases this) fun i j hi hj he => by
      obtain ⟨p, hp, h1⟩ := hg i hi
      obtain ⟨q, hq, h2⟩ := hg j hj
      rw [h1, h2] at he
      exact h.inj hp hq he
  rw [List.length_erase_of_mem ha] at this
  have := h.room
  have := List.length_pos_of_mem ha
  omega

/-- A new path then gets a slot of its own. -/
theorem OwnS.slot (h : OwnS f A c) {a : Nat × Nat} (ha : a ∈ A) (hn : c.paths.fromAddrs a = none) {p : Path} {b : Bool} {k : Nat} {m : PathMap}
    (hi : c.paths.insertPath p b = some (k, m)) : k = c.paths.slots.length := by
  have hs := h.space ha hn
  unfold PathMap.insertPath at hi
  have hm : c.paths.makeRoom = some c.paths := by
    unfold PathMap.makeRoom
    rw [len_of_all h.table, if_pos hs]
  rw [hm] at hi
  dsimp only at hi
  have hb : (c.paths.slabInsert p).1 = c.paths.slots.length := by
    unfold PathMap.slabInsert; rw [h.table.free]
  exact ((congrArg Prod.fst (Option.some.inj hi)).symm.trans hb)

/-- A new path without source connection ID. -/
theorem OwnS.insert (h : OwnS f A c) {a : Nat × Nat} (ha : a ∈ A) (hn : c.paths.fromAddrs a = none) {p : Path} {b : Bool} {k n : Nat} {m : PathMap}
    (hp : p.addr = a) (hi : c.paths.insertPath p b = some (k, m)) : k = c.paths.slots.length ∧ m.get k = some p ∧
      (∀ i, i ≠ k → m.get i = c.paths.get i) ∧ (p.scid = none → OwnS f A { c with paths := m, nextUid := n }) ∧ Table m ∧ m.maxPaths = c.paths.maxPaths := by
  have hk := h.slot ha hn hi
  have s := insertPath_spec h.table (by rw [← hp] at hn; exact hn) hi
  refine ⟨hk, s.self, s.other, fun hsc => ⟨h.nz, h.nodup, h.fresh, ?_, ?_, ?_, s.table, by dsimp only; rw [s.maxPaths]; exact h.room⟩, s.table, s.maxPaths⟩
  · intro i q sq hq hqs
    have hq : m.get i = some q := hq
    by_cases hik : i = k
    · rw [hik, s.self] at hq
      cases hq
      rw [hsc] at hqs
      cases hqs
    · rw [s.other i hik] at hq
      exact h.own i q sq hq hqs
  · intro e he i hei
    obtain ⟨q, hq, hqa⟩ := h.link e he i hei
    have hlt := PathMap.get_lt hq
    exact ⟨q, by dsimp only; rw [s.other i (by omega)]; exact hq, hqa⟩
  · intro i q hq
    have hq : m.get i = some q := hq
    by_cases hik : i = k
    · rw [hik, s.self] at hq
      cases hq
      rw [hp]; exact ha
    · rw [s.other i hik] at hq
      exact h.addrs i q hq

theorem linkScid_ok {ids : Ids} {e : Entry} (hn : (keys ids.scids.inner).Nodup) (he : e ∈ ids.scids.inner) (pid : Nat) :
    ids.linkScid e.seq pid = (.ok (), { ids with scids := { ids.scids with inner := Deque.put ids.scids.inner { e with path := some pid } } }) := by
  unfold Ids.linkScid
  have : ids.scids.get e.seq = some e := Cid.find_seq_of_mem hn he
  rw [this]

/-- A connection ID is linked to a path that takes it. -/
theorem OwnS.take {e : Entry} {pid : Nat} {p : Path} {m : PathMap} {n : Nat} (h : OwnS f A c) (he : e ∈ c.ids.scids.inner)
    (hother : ∀ i, i ≠ pid → m.get i = c.paths.get i) (hself : m.get pid = some p) (hpa : p.addr = f e.cid) (hpA : p.addr ∈ A) (hps : p.scid = some e.seq)
    (hback : ∀ x ∈ c.ids.scids.inner, x.path = some pid → p.addr = f x.cid)
    (hpath : ∀ i, e.path = some i → i = pid) (ht : Table m) (hmax : m.maxPaths = c.paths.maxPaths) :
    OwnS f A { c with paths := m, nextUid := n, ids := (c.ids.linkScid e.seq pid).2 } := by
  rw [linkScid_ok h.nodup he]
  have hkey : e.seq ∈ keys c.ids.scids.inner := List.mem_map.mpr ⟨e, he, rfl⟩
  have hme : ({ e with path := some pid } : Entry) ∈ Deque.put c.ids.scids.inner { e with path := some pid } := mem_put_self hkey
  refine ⟨h.nz, by dsimp only; rw [Cid.keys_put]; exact h.nodup, ?_, ?_, ?_, ?_, ht, by dsimp only; rw [hmax]; exact h.room⟩
  · intro x hx
    rcases mem_put_or hx with hx | hx
    · rw [hx]; exact h.fresh e he
    · exact h.fresh x hx
  · intro i q s hq hqs
    have hq : m.get i = some q := hq
    by_cases hip : i = pid
    · rw [hip, hself] at hq
      cases hq
      rw [hps] at hqs
      cases hqs
      exact ⟨_, hme, rfl, by rw [hip]⟩
    · rw [hother i hip] at hq
      obtain ⟨x, hx, hxs, hxp⟩ := h.own i q s hq hqs
      by_cases hxe : x.seq = e.seq
      · have : x = e := Cid.eq_of_seq h.nodup hx he hxe
        rw [this] at hxp
        exact absurd (hpath i hxp) hip
      · exact ⟨x, mem_put_other hx hxe, hxs, hxp⟩
  · intro x hx i hxi
    dsimp only
    rcases mem_put_or hx with hxe | hxm
    · rw [hxe] at hxi ⊢
      cases hxi
      exact ⟨p, hself, hpa⟩
    · by_cases hip : i = pid
      · rw [hip] at hxi ⊢
        exact ⟨p, hself, hback x hxm hxi⟩
      · rw [hother i hip]
        exact h.link x hxm i hxi
  · intro i q hq
    have hq : m.get i = some q := hq
    by_cases hip : i = pid
    · rw [hip, hself] at hq
      cases hq
      exact hpA
    · rw [hother i hip] at hq
      exact h.addrs i q hq

/-- A packet to a connection ID on the path of the address it is used from. -/
theorem OwnS.seenOn (h : OwnS f A c) {pid : Nat} {p : Path} {e : Entry} (he : e ∈ c.ids.scids.inner) (hp : c.paths.get pid = some p)
    (ha : p.addr = f e.cid) : OwnS f A (c.seenOn pid e.seq e.cid).2 := by
  unfold Conn.seenOn
  rw [hp]
  dsimp only
  split
  · exact h
  · have hr : Rel SameId c.paths (c.paths.upd pid fun p => { p with scid := some e.seq }) :=
      Rel.upd (fun _ => ⟨rfl, rfl, rfl⟩) fun _ _ => ⟨rfl, rfl, rfl⟩
    have := h.take (p := { p with scid := some e.seq }) (m := c.paths.upd pid fun p => { p with scid := some e.seq }) (n := c.nextUid) he
      (fun i hi => by rw [PathMap.get_upd, if_neg fun h => hi h.symm]) (by rw [PathMap.get_upd, if_pos rfl, hp]; rfl) ha (h.addrs pid p hp) rfl
      (fun x hx hxp => by
        obtain ⟨q, hq, hqa⟩ := h.link x hx pid hxp
        rw [hp] at hq; cases hq; exact hqa)
      (fun i hi => by
        obtain ⟨q, hq, hqa⟩ := h.link e he i hi
        exact h.inj hq hp (hqa.trans ha.symm)) (h.table.rel hr fun _ _ r => r) rfl
    split
    · rename_i heq; rw [heq] at this; exact this
    · rename_i heq; rw [heq] at this; exact this

/-- Finding or making the path of a packet. -/
theorem OwnS.recvPath (h : OwnS f A c) {pid : Option Nat} {a : Nat × Nat} {cid : Bytes} {left : Nat} {r : Conn.Res Nat} (ha : a ∈ A) (hf : f cid = a)
    (hsome : ∀ q, pid = some q → ∃ p, c.paths.get q = some p ∧ p.addr = a) (hnone : pid = none → c.paths.fromAddrs a = none)
    (hr : c.recvPath pid a cid left = some r) : OwnS f A r.2 := by
  unfold Conn.recvPath at hr
  split at hr
  · cases hr; exact h
  · rename_i e hfind
    have he := List.mem_of_find?_eq_some hfind
    have hec : e.cid = cid := by have := List.find?_some hfind; simpa using this
    cases pid with
    | some pid =>
      have hr := Option.some.inj hr
      obtain ⟨p, hp, hpa⟩ := hsome pid rfl
      rw [← hr, ← hec]
      exact h.seenOn he hp (by rw [hpa, hec, hf])
    | none =>
      dsimp only at hr
      rw [h.nz] at hr
      have hn := hnone rfl
      cases hep : e.path with
      | some old =>
        exfalso
        obtain ⟨q, hq, hqa⟩ := h.link e he old hep
        have := (h.table.addrs a old).mpr ⟨q, hq, by rw [← hf, ← hec]; exact hqa⟩
        rw [hn] at this
        cases this
      | none =>
        rw [hep] at hr
        have hr : c.createRecv a e.seq left none = some r := hr
        unfold Conn.createRecv at hr
        split at hr
        · cases hr
        · rename_i k m hi
          have hr := Option.some.inj hr
          obtain ⟨hk, hself, hother, _, ht, hmax⟩ := h.insert (n := c.nextUid + 1) (p := c.newPath a e.seq left) ha hn rfl hi
          have := h.take (n := c.nextUid + 1) he hother hself (by rw [hec, hf]; rfl) ha rfl
            (fun x hx hxp => by
              obtain ⟨q, hq, _⟩ := h.link x hx k hxp
              have := PathMap.get_lt hq
              omega) (fun i hi => by rw [hep] at hi; cases hi) ht hmax
          rw [← hr]
          simp only [Conn.noteReuse]
          split
          · rename_i heq
            have heq : c.ids.linkScid e.seq k = _ := heq
            rw [heq] at this; exact this
          · rename_i heq
            have heq : c.ids.linkScid e.seq k = _ := heq
            rw [heq] at this; exact this

/-- The peer retires a connection ID. -/
theorem OwnS.onRetire (h : OwnS f A c) (seq : Nat) (cid : Bytes) : (∃ e, (c.onRetire seq cid).1 = .error e) ∨ OwnS f A (c.onRetire seq cid).2 := by
  -- What is left after the entry is removed, if no path names it.
  have gone : ∀ (d : List Entry) (ids : Ids) (m : PathMap), d = Deque.del c.ids.scids.inner seq → ids.scids.inner = d →
      ids.zeroLenScid = c.ids.zeroLenScid → ids.nextScidSeq = c.ids.nextScidSeq → Rel SameId c.paths m →
      (∀ i q s, m.get i = some q → q.scid = some s → s ≠ seq ∧ ∃ p, c.paths.get i = some p ∧ p.scid = some s) →
      OwnS f A { c with ids := ids, paths := m } := by
    intro d ids m hd hi hz hnx hrel hpaths
    have hmem : ∀ x, x ∈ ids.scids.inner ↔ x ∈ c.ids.scids.inner ∧ x.seq ≠ seq := by
      intro x; rw [hi, hd]; exact Cid.mem_del h.nodup
    refine ⟨by dsimp only; rw [hz]; exact h.nz, ?_, ?_, ?_, ?_, ?_, h.table.rel hrel fun _ _ r => r, by dsimp only; rw [hrel.maxPaths]; exact h.room⟩
    · dsimp only
      rw [hi, hd]
      exact h.nodup.sublist ((Cid.del_sublist _ _).map _)
    · intro x hx
      dsimp only
      rw [hnx]
      exact h.fresh x ((hmem x).mp hx).1
    · intro i q s hq hqs
      obtain ⟨hne, p, hp, hps⟩ := hpaths i q s hq hqs
      obtain ⟨x, hx, hxs, hxp⟩ := h.own i p s hp hps
      exact ⟨x, (hmem x).mpr ⟨hx, by rw [hxs]; exact hne⟩, hxs, hxp⟩
    · intro x hx i hxi
      obtain ⟨p, hp, hpa⟩ := h.link x ((hmem x).mp hx).1 i hxi
      obtain ⟨q, hq, r⟩ := hrel.fwd i p hp
      exact ⟨q, hq, by unfold Path.addr; rw [r.2.1, r.2.2]; exact hpa⟩
    · intro i q hq
      obtain ⟨p, hp, r⟩ := hrel.bwd i q hq
      have := h.addrs i p hp
      unfold Path.addr at this ⊢
      rw [r.2.1, r.2.2]; exact this
  unfold Conn.onRetire
  rw [h.nz]
  simp only [Bool.false_eq_true, if_false]
  -- What `retire_scid` gives.
  have key : (∃ e ids, c.ids.retireScid seq cid = (.error e, ids)) ∨
      (∃ ids, c.ids.retireScid seq cid = (.ok none, ids) ∧ c.ids.scids.get seq = none ∧ ids.scids.inner = Deque.del c.ids.scids.inner seq ∧
        ids.zeroLenScid = c.ids.zeroLenScid ∧ ids.nextScidSeq = c.ids.nextScidSeq) ∨
      ∃ e ids, c.ids.retireScid seq cid = (.ok e.path, ids) ∧ c.ids.scids.get seq = some e ∧ ids.scids.inner = Deque.del c.ids.scids.inner seq ∧
        ids.zeroLenScid = c.ids.zeroLenScid ∧ ids.nextScidSeq = c.ids.nextScidSeq := by
    unfold Ids.retireScid
    split
    · exact Or.inl ⟨_, _, rfl⟩
    · unfold Deque.remove
      split
      · exact Or.inl ⟨_, _, rfl⟩
      · rename_i heq
        split at heq
        · cases heq
        · have heq := Except.ok.inj heq
          have h1 := congrArg Prod.fst heq
          have h2 := congrArg Prod.snd heq
          dsimp only at h1 h2
          exact Or.inr (Or.inl ⟨_, rfl, h1, by rw [← h2], rfl, rfl⟩)
      · rename_i heq
        split at heq
        · cases heq
        · have heq := Except.ok.inj heq
          have h1 := congrArg Prod.fst heq
          have h2 := congrArg Prod.snd heq
          dsimp only at h1 h2
          dsimp only
          split
          · exact Or.inl ⟨_, _, rfl⟩
          · split
            · exact Or.inl ⟨_, _, rfl⟩
            · exact Or.inr (Or.inr ⟨_, _, rfl, h1, by dsimp only; rw [← h2], rfl, rfl⟩)
  have same : Rel SameId c.paths c.paths := Rel.refl (fun _ => ⟨rfl, rfl, rfl⟩) _
  rcases key with ⟨e, ids, hk⟩ | ⟨ids, hk, hg, h1, h2, h3⟩ | ⟨e, ids, hk, hg, h1, h2, h3⟩
  · rw [hk]; exact Or.inl ⟨e, rfl⟩
  · rw [hk]
    refine Or.inr (gone _ ids c.paths rfl h1 h2 h3 same fun i q s hq hqs => ⟨fun hss => ?_, q, hq, hqs⟩)
    obtain ⟨x, hx, hxs, _⟩ := h.own i q s hq hqs
    exact Cid.find_seq_none.mp hg (List.mem_map.mpr ⟨x, hx, hxs.trans hss⟩)
  · rw [hk]
    obtain ⟨hem, hes⟩ := Cid.find_seq_some hg
    -- A path that names it is the one it is linked to.
    have only : ∀ i q, c.paths.get i = some q → q.scid = some seq → e.path = some i := by
      intro i q hq hqs
      obtain ⟨x, hx, hxs, hxp⟩ := h.own i q seq hq hqs
      rw [← Cid.eq_of_seq h.nodup hx hem (hxs.trans hes.symm)]; exact hxp
    cases hep : e.path with
    | none =>
      refine Or.inr (gone _ ids c.paths rfl h1 h2 h3 same fun i q s hq hqs => ⟨fun hss => ?_, q, hq, hqs⟩)
      have := only i q hq (by rw [hqs, hss])
      rw [hep] at this
      cases this
    | some pid =>
      obtain ⟨p, hp, _⟩ := h.link e hem pid hep
      dsimp only
      rw [hp]
      dsimp only
      right
      split
      · refine gone _ ids _ rfl h1 h2 h3 (Rel.upd (fun _ => ⟨rfl, rfl, rfl⟩) fun _ _ => ⟨rfl, rfl, rfl⟩) fun i q s hq hqs => ?_
        rw [PathMap.get_upd] at hq
        split at hq
        · rename_i hpi
          subst hpi
          rw [hp] at hq
          cases hq
          cases hqs
        · rename_i hpi
          refine ⟨fun hss => ?_, q, hq, hqs⟩
          have := only i q hq (by rw [hqs, hss])
          rw [hep] at this
          exact hpi (Option.some.inj this)
      · rename_i hns
        refine gone _ ids c.paths rfl h1 h2 h3 same fun i q s hq hqs => ⟨fun hss => ?_, q, hq, hqs⟩
        have hpi := only i q hq (by rw [hqs, hss])
        rw [hep] at hpi
        cases hpi
        rw [hp] at hq
        cases hq
        exact hns (by rw [hqs, hss])

/-- Either an error, or the invariant. -/
abbrev Fine {α : Type} (f : Bytes → Nat × Nat) (A : List (Nat × Nat)) (r : Conn.Res α) : Prop := (∃ e, r.1 = .error e) ∨ OwnS f A r.2

theorem OwnS.onFrames (h : OwnS f A c) (pid : Nat) (cid : Bytes) (early : Bool) (fs : List Frame) : Fine f A (c.onFrames pid cid early fs) := by
  induction fs generalizing c with
  | nil => exact Or.inr h
  | cons x fs ih =>
    simp only [Conn.onFrames]
    split
    · exact Or.inl ⟨_, rfl⟩
    · have h1 : Fine f A (c.onFrame pid cid x) := by
        cases x with
        | newCid cid' seq token rpt => exact Or.inr (h.still (Still.onNewCid c cid' seq token rpt))
        | retire seq => exact h.onRetire seq cid
        | challenge d =>
          simp only [Conn.onFrame]
          split
          · exact Or.inl ⟨_, rfl⟩
          · refine Or.inr (h.still (Still.upd fun p => ?_))
            unfold Path.onChallenge; split <;> exact ⟨⟨rfl, rfl, rfl⟩, rfl⟩
        | response d =>
          simp only [Conn.onFrame]
          split
          · exact Or.inl ⟨_, rfl⟩
          · rename_i m hm; exact Or.inr (h.still (Still.paths (SameS.onResponse hm)))
        | padding => exact Or.inr h
        | other => exact Or.inr h
      split
      · exact Or.inl ⟨_, rfl⟩
      · rename_i heq
        rw [heq] at h1
        rcases h1 with ⟨e, he⟩ | h1
        · cases he
        · exact ih h1

theorem OwnS.process (h : OwnS f A c) (pid : Nat) (cid : Bytes) (early : Bool) (fs : List Frame) (newest : Bool) :
    Fine f A (c.process pid cid early fs newest) := by
  unfold Conn.process
  have h1 := h.onFrames pid cid early fs
  split
  · exact Or.inl ⟨_, rfl⟩
  · rename_i c1 heq
    rw [heq] at h1
    rcases h1 with ⟨e, he⟩ | h1
    · cases he
    have h2 := OwnS.still h1 (Still.allocate c1 (List.range c1.paths.slots.length))
    split
    · exact Or.inl ⟨_, rfl⟩
    · rename_i heq2
      rw [heq2] at h2
      split
      · exact Or.inr h2
      · exact Or.inr (OwnS.still h2 (Still.migration _ _ _))

theorem OwnS.recvLong (h : OwnS f A c) (hs early : Bool) (fs : List Frame) (newest : Bool) : Fine f A (c.recvLong hs early fs newest) := by
  unfold Conn.recvLong
  split
  · exact Or.inl ⟨_, rfl⟩
  · rename_i pid _
    have h1 := h.process pid [] early fs newest
    split
    · exact Or.inl ⟨_, rfl⟩
    · rename_i heq
      rw [heq] at h1
      rcases h1 with ⟨e, he⟩ | h1
      · cases he
      right
      unfold Conn.verify
      split
      · exact OwnS.still h1 (Still.upd fun p => ⟨⟨rfl, rfl, rfl⟩, rfl⟩)
      · exact h1

theorem OwnS.recvSingle (h : OwnS f A c) {pid : Option Nat} {a : Nat × Nat} {left : Nat} {pkt : Pkt} {r : Conn.Res Nat}
    (hf : ∀ cid fs nw, pkt = .short cid fs nw → f cid = a ∧ a ∈ A)
    (hsome : ∀ q, pid = some q → ∃ p, c.paths.get q = some p ∧ p.addr = a) (hnone : pid = none → c.paths.fromAddrs a = none)
    (hr : c.recvSingle pid a left pkt = some r) : Fine f A r := by
  have long : ∀ (hs early : Bool) (fs : List Frame) (nw : Bool) (x : Except Err Unit) (c' : Conn),
      c.recvLong hs early fs nw = (x, c') → x = .ok () → OwnS f A c' := by
    intro hs early fs nw x c' heq hx
    have h1 := h.recvLong hs early fs nw
    rw [heq] at h1
    rcases h1 with ⟨e, he⟩ | h1
    · have he : x = .error e := he
      rw [hx] at he; cases he
    · exact h1
  cases pkt with
  | long hs size =>
    simp only [Conn.recvSingle] at hr
    split at hr
    · cases hr; exact Or.inl ⟨_, rfl⟩
    · rename_i heq; cases hr; exact Or.inr (long _ _ _ _ _ _ heq rfl)
  | early fs nw size =>
    simp only [Conn.recvSingle] at hr
    split at hr
    · split at hr
      · cases hr; exact Or.inl ⟨_, rfl⟩
      · rename_i heq; cases hr; exact Or.inr (long _ _ _ _ _ _ heq rfl)
    · split at hr
      · cases hr
        exact Or.inr (h.still ⟨rfl, rfl, rfl, fun h => h, Rel.refl SameS.refl _⟩)
      · cases hr
  | short cid fs nw =>
    simp only [Conn.recvSingle] at hr
    obtain ⟨hfa, haA⟩ := hf cid fs nw rfl
    split at hr
    · cases hr
    · cases hr; exact Or.inl ⟨_, rfl⟩
    · rename_i k c1 heq
      have h1 := h.recvPath haA hfa hsome hnone heq
      have h2 := OwnS.process h1 k cid false fs nw
      split at hr
      · cases hr; exact Or.inl ⟨_, rfl⟩
      · rename_i heq2
        rw [heq2] at h2
        cases hr
        rcases h2 with ⟨e, he⟩ | h2
        · cases he
        · exact Or.inr h2

/-- After a packet that is not the last, the path of the address is still the same. -/
theorem recvSingle_path {pid : Option Nat} {a : Nat × Nat} {left n : Nat} {pkt : Pkt} {c' : Conn}
    (hr : c.recvSingle pid a left pkt = some (.ok n, c')) : n = left ∨ Rel SameId c.paths c'.paths := by
  have long : ∀ (hs early : Bool) (fs : List Frame) (nw : Bool) (x : Except Err Unit) (c' : Conn),
      c.recvLong hs early fs nw = (x, c') → Rel SameId c.paths c'.paths := by
    intro hs early fs nw x c' heq
    have k := SameId.elem.recvLong c hs early fs nw (fun _ _ _ => ⟨rfl, rfl, rfl⟩) fun _ _ _ => trivial
    rw [heq] at k
    exact k.2
  cases pkt with
  | long hs size =>
    simp only [Conn.recvSingle] at hr
    split at hr
    · cases hr
    · rename_i heq; cases hr; exact Or.inr (long _ _ _ _ _ _ heq)
  | early fs nw size =>
    simp only [Conn.recvSingle] at hr
    split at hr
    · split at hr
      · cases hr
      · rename_i heq; cases hr; exact Or.inr (long _ _ _ _ _ _ heq)
    · split at hr
      · cases hr; exact Or.inr (Rel.refl (fun _ => ⟨rfl, rfl, rfl⟩) _)
      · cases hr
  | short cid fs nw =>
    simp only [Conn.recvSingle] at hr
    split at hr
    · cases hr
    · cases hr
    · split at hr
      · cases hr
      · cases hr; exact Or.inl rfl

theorem OwnS.recvLoop (h : KeptS f A c) {pid : Option Nat} {a : Nat × Nat} {left : Nat} {pkts : List Pkt}
    (hf : ∀ cid fs nw, .short cid fs nw ∈ pkts → f cid = a ∧ a ∈ A)
    (hsome : ∀ q, pid = some q → ∃ p, c.paths.get q = some p ∧ p.addr = a) (hnone : pid = none → c.paths.fromAddrs a = none) :
    KeptS f A (c.recvLoop pid a left pkts).2 := by
  induction pkts generalizing c left with
  | nil => exact h
  | cons pkt l ih =>
    simp only [Conn.recvLoop]
    split
    · exact h
    · rename_i hcl
      have h : OwnS f A c := h.resolve_left fun hc => hcl (Or.inl hc)
      split
      · exact Or.inr h
      · exact Or.inl rfl
      · rename_i n c1 heq
        have h1 := h.recvSingle (fun cid fs nw hp => hf cid fs nw (by rw [hp]; exact List.mem_cons_self)) hsome hnone heq
        rcases h1 with ⟨e, he⟩ | h1
        · cases he
        rcases recvSingle_path heq with hn | hrel
        · subst hn
          rw [Nat.sub_self]
          have : c1.recvLoop pid a 0 l = (false, c1) := by
            cases l with
            | nil => rfl
            | cons x l => simp only [Conn.recvLoop]; rw [if_pos (Or.inr trivial)]
          rw [this]
          exact Or.inr h1
        · refine ih (Or.inr h1) (fun cid fs nw hp => hf cid fs nw (List.mem_cons_of_mem _ hp)) ?_ ?_
          · intro q hq
            obtain ⟨p, hp, hpa⟩ := hsome q hq
            obtain ⟨p', hp', r⟩ := hrel.fwd q p hp
            exact ⟨p', hp', by unfold Path.addr; rw [r.2.1, r.2.2]; exact hpa⟩
          · intro hq
            have := hnone hq
            unfold PathMap.fromAddrs at this ⊢
            rw [hrel.addrs]
            exact this

theorem recvLoop_closed (hc : c.closed = true) (pid : Option Nat) (a : Nat × Nat) (left : Nat) (pkts : List Pkt) :
    (c.recvLoop pid a left pkts).2 = c := by
  cases pkts with
  | nil => rfl
  | cons x l => simp only [Conn.recvLoop]; rw [if_pos (Or.inl hc)]

theorem OwnS.recvOne (h : KeptS f A c) {a : Nat × Nat} {len : Nat} {pkts : List Pkt}
    (hf : ∀ cid fs nw, .short cid fs nw ∈ pkts → f cid = a ∧ a ∈ A) : KeptS f A (c.recvOne a len pkts).2 := by
  unfold Conn.recvOne
  split
  · exact h
  · split
    · rename_i pid hpid
      split
      · exact h
      · have hst : Still c (c.credit pid len) := by
          refine Still.upd fun p => ?_
          split <;> exact ⟨⟨rfl, rfl, rfl⟩, rfl⟩
        rcases h with hc | h
        · rw [recvLoop_closed (hst.closed hc)]
          exact Or.inl (hst.closed hc)
        · refine OwnS.recvLoop (Or.inr (h.still hst)) hf ?_ (fun h => by cases h)
          intro q hq
          cases hq
          obtain ⟨p, hp, hpa⟩ := (h.table.addrs a pid).mp hpid
          obtain ⟨p', hp', r⟩ := hst.rel.fwd pid p hp
          exact ⟨p', hp', by rw [r.addr]; exact hpa⟩
    · rename_i hnone
      split
      · exact OwnS.recvLoop h hf (fun q hq => by cases hq) fun _ => hnone
      · exact h

theorem OwnS.flush (h : KeptS f A c) : KeptS f A c.flush := by
  have rep : ∀ (l : List Kept) (c : Conn), KeptS f A c → KeptS f A (c.replay l) := by
    intro l
    induction l with
    | nil => exact fun _ h => h
    | cons k l ih =>
      intro c h
      simp only [Conn.replay]
      have h1 := OwnS.recvOne (a := k.addr) (len := k.size) (pkts := [.early k.frames k.newest k.size]) h
        (fun cid fs nw hp => by cases List.mem_singleton.mp hp)
      split
      · rename_i heq; rw [heq] at h1; exact h1
      · rename_i heq; rw [heq] at h1; exact ih _ h1
  unfold Conn.flush
  split
  · exact rep _ _ (h.still ⟨rfl, rfl, rfl, fun h => h, Rel.refl SameS.refl _⟩)
  · exact h

/-- A client makes a path. -/
theorem OwnS.createClient (h : KeptS f A c) {a : Nat × Nat} (ha : a ∈ A) (hn : c.paths.fromAddrs a = none) : KeptS f A (c.createClient a).2 := by
  unfold Conn.createClient
  split
  · exact h
  · split
    · exact h
    · split
      · exact h
      · rename_i n _
        split
        · exact h
        · rename_i pid m hi
          have h1 : KeptS f A { c with paths := m, nextUid := c.nextUid + 1 } := h.imp id fun h =>
            (h.insert (n := c.nextUid + 1) (p := { Path.new c.nextUid a.1 a.2 c.recvMax false with dcid := some n }) ha hn rfl hi).2.2.2.1 rfl
          dsimp only
          split
          · rename_i heq
            exact KeptS.still h1 (Still.linkDcid' (c := { c with paths := m, nextUid := c.nextUid + 1 }) heq)
          · rename_i heq
            exact KeptS.still h1 (Still.linkDcid' (c := { c with paths := m, nextUid := c.nextUid + 1 }) heq)

theorem OwnS.probePath (h : KeptS f A c) {a : Nat × Nat} (ha : a ∈ A) : KeptS f A (c.probePath a).2 := by
  have h1 : KeptS f A (c.findOrCreate a).2 := by
    unfold Conn.findOrCreate
    split
    · exact h
    · rename_i hn; exact OwnS.createClient h ha hn
  unfold Conn.probePath
  split
  · rename_i heq; rw [heq] at h1; exact h1
  · rename_i heq
    rw [heq] at h1
    split
    · exact h1
    · dsimp only
      split
      · exact KeptS.still h1 (Still.upd fun p => ⟨⟨rfl, rfl, rfl⟩, rfl⟩)
      · exact KeptS.still h1 (Still.upd fun p => ⟨⟨rfl, rfl, rfl⟩, rfl⟩)

theorem OwnS.migrate (h : KeptS f A c) {a : Nat × Nat} (ha : a ∈ A) : KeptS f A (c.migrate a).2 := by
  unfold Conn.migrate
  split
  · exact h
  · split
    · rename_i pid _
      split
      · exact h
      · rename_i p _
        split
        · exact h
        · have h1 := h.still (Still.takeDcid c pid p)
          split
          · rename_i heq; rw [heq] at h1; exact h1
          · rename_i heq; rw [heq] at h1; exact KeptS.still h1 (Still.setActive _ _)
    · rename_i hn
      have h1 := OwnS.createClient h ha hn
      split
      · rename_i heq; rw [heq] at h1; exact h1
      · rename_i heq; rw [heq] at h1; exact KeptS.still h1 (Still.setActive _ _)

/-- A connection ID is made. -/
theorem OwnS.newScid (h : OwnS f A c) (cid : Bytes) (token : Option Nat) (r : Bool) :
    OwnS f A { c with ids := (c.ids.newScid cid token true none r).2 } := by
  have cont : ∀ s : Ids, s.scids = c.ids.scids → s.zeroLenScid = c.ids.zeroLenScid → s.nextScidSeq = c.ids.nextScidSeq →
      OwnS f A { c with ids := (s.newScidCont cid token true none).2 } := by
    intro s h1 h2 h3
    have same : OwnS f A { c with ids := s } := h.still (Still.ids (by rw [h1]) h2 h3)
    unfold Ids.newScidCont
    dsimp only
    split
    · exact same
    · split
      · split <;> exact same
      · split
        · exact same
        · rename_i d hd
          have hnot : s.nextScidSeq ∉ keys s.scids.inner := by
            intro hm
            obtain ⟨e, he, hes⟩ := List.mem_map.mp hm
            rw [h1] at he
            have := h.fresh e he
            omega
          have hd' := (Cid.insert_new (e := { cid := cid, seq := s.nextScidSeq, token := token, path := none }) hnot hd).1
          have hin : d.inner = s.scids.inner ++ [{ cid := cid, seq := s.nextScidSeq, token := token, path := none }] := by rw [hd']
          have hx : ∀ x ∈ d.inner, x ∈ c.ids.scids.inner ∨ x = { cid := cid, seq := s.nextScidSeq, token := token, path := none } := by
            intro x hx
            rw [hin, h1] at hx
            rcases List.mem_append.mp hx with hx | hx
            · exact Or.inl hx
            · exact Or.inr (List.mem_singleton.mp hx)
          have main : OwnS f A { c with ids := { s with scids := d, nextScidSeq := s.nextScidSeq + 1 } } := by
            refine ⟨by dsimp only; rw [h2]; exact h.nz, ?_, ?_, ?_, ?_, h.addrs, h.table, h.room⟩
            · dsimp only
              rw [hin]
              unfold keys
              rw [List.map_append, List.nodup_append]
              refine ⟨by rw [h1]; exact h.nodup, by simp, ?_⟩
              intro x hx y hy hxy
              have hy : y = s.nextScidSeq := by simpa using hy
              rw [hxy, hy] at hx
              exact hnot hx
            · intro x hxm
              dsimp only
              rcases hx x hxm with hx | hx
              · have := h.fresh x hx; omega
              · rw [hx]; dsimp only; omega
            · intro i p sq hp hps
              obtain ⟨e, he, hes, hep⟩ := h.own i p sq hp hps
              exact ⟨e, by dsimp only; rw [hin, h1]; exact List.mem_append_left _ he, hes, hep⟩
            · intro x hxm i hxi
              rcases hx x hxm with hx | hx
              · exact h.link x hx i hxi
              · rw [hx] at hxi; cases hxi
          exact main.still (Still.markAdvertise _ s.nextScidSeq true)
  unfold Ids.newScid
  split
  · exact h
  · split
    · split
      · exact h
      · split
        · exact h
        · exact cont _ rfl rfl rfl
    · exact cont _ rfl rfl rfl

/-- Each connection ID is used from one address, `f` of it, and all addresses are in `A`. -/
def Op.Apart (f : Bytes → Nat × Nat) (A : List (Nat × Nat)) : Op → Prop
  | .recv a _ pkts => ∀ cid fs nw, .short cid fs nw ∈ pkts → f cid = a ∧ a ∈ A
  | .probe a => a ∈ A
  | .migrate a => a ∈ A
  | _ => True

theorem OwnS.step (h : KeptS f A c) (op : Op) (ho : op.Apart f A) : KeptS f A (c.step op) := by
  cases op with
  | recv a len pkts =>
    have h1 := OwnS.recvOne (len := len) h ho
    simp only [Conn.step]
    unfold Conn.recv
    split
    · rename_i heq; rw [heq] at h1; exact h1
    · rename_i heq; rw [heq] at h1; exact OwnS.flush h1
  | send src dst outLen now pkts =>
    have h1 := OwnS.flush h
    simp only [Conn.step]
    rcases send_spec c src dst outLen now pkts with ⟨h2, _⟩ | ⟨pid, p, os, _, _, _, h2, _⟩
    · rw [h2]; exact h1
    · rw [h2]; exact h1.still (Still.upd fun p => SameS.sentAll p os now)
  | timeout now due => exact h.still (Still.onTimeout c now due)
  | probe a => exact OwnS.probePath h ho
  | migrate a => exact OwnS.migrate h ho
  | retireDcid seq => exact h.still (Still.retireDcid c seq)
  | newScid cid token r => exact h.imp id fun h => h.newScid cid (some token) r
  | setLimit v =>
    refine h.still ?_
    simp only [Conn.step]
    unfold Ids.setSourceLimit
    dsimp only
    split
    · refine Still.ids ?_ rfl rfl
      dsimp only [Deque.resize]
      split <;> rfl
    · exact Still.refl c
  | establish => exact h.still ⟨rfl, rfl, rfl, fun h => h, Rel.refl SameS.refl _⟩
  | earlyKey => exact h.still ⟨rfl, rfl, rfl, fun h => h, Rel.refl SameS.refl _⟩
  | takeNew =>
    refine h.still ?_
    simp only [Conn.step]
    unfold Ids.sendNew
    split
    · exact Still.refl c
    · split
      · exact Still.refl c
      · exact Still.markAdvertise c _ false
  | takeRetire seq u =>
    refine h.still ?_
    simp only [Conn.step]
    unfold Ids.sendRetire
    split
    · exact Still.refl c
    · split
      · exact Still.refl c
      · exact Still.markRetire c seq false
  | lostNew seq => exact h.still (Still.markAdvertise c seq true)
  | lostRetire seq => exact h.still (Still.markRetire c seq true)
  | close => exact Or.inl rfl

theorem OwnS.run (h : KeptS f A c) (ops : List Op) (ho : ∀ op ∈ ops, op.Apart f A) : KeptS f A (c.run ops) := by
  induction ops generalizing c with
  | nil => exact h
  | cons op l ih => exact ih (OwnS.step h op (ho op List.mem_cons_self)) fun o hm => ho o (List.mem_cons_of_mem _ hm)

theorem OwnS.start (server verified : Bool) (a : Nat × Nat) (limit factor recvMax : Nat) (noReuse : Bool) (scid dcid : Bytes) (stok dtok : Option Nat)
    (hs : scid ≠ []) (ha : a ∈ A) (hA : A.length ≤ limit) (hf : f scid = a) :
    OwnS f A (Conn.start server verified a limit factor recvMax noReuse scid dcid stok dtok) := by
  have hget : ∀ i p, (Conn.start server verified a limit factor recvMax noReuse scid dcid stok dtok).paths.get i = some p →
      i = 0 ∧ p.addr = a ∧ p.scid = some 0 := by
    intro i p hp
    cases i with
    | zero => cases hp; exact ⟨rfl, rfl, rfl⟩
    | succ n => cases hp
  refine ⟨?_, ?_, ?_, ?_, ?_, ?_, (start_inv server verified a limit factor recvMax noReuse scid dcid stok dtok).table, hA⟩
  · show scid.isEmpty = false
    cases scid with
    | nil => exact absurd rfl hs
    | cons x l => rfl
  · show [0].Nodup
    simp
  · intro e he
    rw [List.mem_singleton.mp he]
    exact Nat.zero_lt_one
  · intro i p s hp hps
    obtain ⟨h1, _, h3⟩ := hget i p hp
    rw [h3] at hps
    cases hps
    exact ⟨_, List.mem_singleton.mpr rfl, rfl, by rw [h1]⟩
  · intro e he i hei
    rw [List.mem_singleton.mp he] at hei ⊢
    cases hei
    exact ⟨_, rfl, hf.symm⟩
  · intro i p hp
    rw [(hget i p hp).2.1]
    exact ha

end Verif.Path
