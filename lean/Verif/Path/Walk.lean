import Verif.Path.Step
import Verif.Cid.Lemmas

/-!
A property of connections that every elementary change keeps is kept by every operation.
The changes are those of one path that leave its connection ID and its being active, the
links between paths and destination connection IDs, new paths, and changes of the active
path.
-/

namespace Verif.Path
open Verif
open Verif.Cid (Ids Err Entry Deque)

variable {c c' c'' : Conn}

/-- A change of a path that does not matter for which path is active and what it is sent to. -/
def Soft (p q : Path) : Prop := q.dcid = p.dcid ∧ q.active = p.active ∧ (p.state ≠ .failed → q.state ≠ .failed)

namespace Soft

theorem refl (p : Path) : Soft p p := ⟨rfl, rfl, fun h => h⟩
theorem trans {p q r : Path} (h1 : Soft p q) (h2 : Soft q r) : Soft p r :=
  ⟨h2.1.trans h1.1, h2.2.1.trans h1.2.1, fun h => h2.2.2 (h1.2.2 h)⟩

theorem promote (p : Path) (s : PState) (hs : s ≠ .failed) : Soft p (p.promote s) := by
  unfold Path.promote
  split
  · exact ⟨rfl, rfl, fun _ => hs⟩
  · exact refl p

theorem chal (p : Path) (d : Nat) : Soft p (p.onChallenge d) := by
  unfold Path.onChallenge
  split <;> exact ⟨rfl, rfl, fun h => h⟩

theorem answer (p : Path) (d : Nat) : Soft p (p.answer d) := by
  unfold Path.answer
  dsimp only
  have := promote { p with verified := true, probingLost := 0, inFlight := p.inFlight.filter (·.data != d) } .validatingMtu (by decide)
  exact ⟨this.1, this.2.1, this.2.2⟩

theorem resp (p : Path) (d : Nat) : Soft p (p.onResponse d).2 := by
  unfold Path.onResponse
  dsimp only
  have h := answer p d
  split
  · split
    · exact h.trans (promote _ _ (by decide))
    · exact ⟨h.1, h.2.1, h.2.2⟩
  · exact h

theorem addChallenge (p : Path) (c : Chal) : Soft p (p.addChallenge c) := by
  unfold Path.addChallenge
  dsimp only
  have := promote p .validating (by decide)
  exact ⟨this.1, this.2.1, this.2.2⟩

theorem sent (p : Path) (o : Conn.Out) (now : Nat) : Soft p (Conn.sent p o now) := by
  unfold Conn.sent
  dsimp only
  have h1 : Soft p (if o.short = true then { p with received := p.received.drop o.responses } else p) := by
    split <;> exact ⟨rfl, rfl, fun h => h⟩
  generalize (if o.short = true then { p with received := p.received.drop o.responses } else p) = q at h1
  split
  · rename_i d _
    have h2 := h1.trans (addChallenge q { data := d, size := o.size, time := now })
    exact ⟨h2.1, h2.2.1, h2.2.2⟩
  · exact ⟨h1.1, h1.2.1, h1.2.2⟩

theorem sentAll (p : Path) (os : List Conn.Out) (now : Nat) : Soft p (p.sentAll os now) := by
  unfold Path.sentAll
  induction os generalizing p with
  | nil => exact refl p
  | cons o l ih => exact (sent p o now).trans (ih _)

theorem onResponse {m m' : PathMap} {d : Nat} (h : m.onResponse d = .ok m') : Rel Soft m m' := by
  have tr : ∀ p q r, Soft p q → Soft q r → Soft p r := fun _ _ _ => trans
  unfold PathMap.onResponse at h
  split at h
  · cases h
  · rename_i active _
    split at h
    · cases h; exact Rel.refl refl _
    · rename_i pid hf
      split at h
      · cases h; exact Rel.refl refl _
      · rename_i p hp
        have h1 : Rel Soft m (m.upd pid fun p => (p.onResponse d).2) := Rel.upd refl fun q _ => resp q d
        dsimp only at h
        cases h
        split
        · unfold PathMap.announce
          dsimp only
          have h2 := (h1.trans tr (Rel.upd (pid := pid) (f := fun p => { p with migrating := false }) refl fun p _ => ⟨rfl, rfl, fun h => h⟩)).trans tr
            (Rel.notify refl _ (.validated (p.onResponse d).2.laddr (p.onResponse d).2.paddr))
          split
          · exact h2.trans tr (Rel.notify refl _ _)
          · exact h2
        · exact h1

end Soft

/-- The lowest unused connection ID is stored, without path. -/
theorem lowestAvailable_mem {ids : Ids} {n : Nat} (h : ids.lowestAvailable = some n) : ∃ e ∈ ids.dcids.inner, e.seq = n ∧ e.path = none := by
  obtain ⟨h1, _⟩ := Cid.least_some h
  obtain ⟨e, he, hn⟩ := List.mem_map.mp h1
  obtain ⟨h2, h3⟩ := List.mem_filter.mp he
  exact ⟨e, h2, hn, by cases hp : e.path with | none => rfl | some x => rw [hp] at h3; cases h3⟩

theorem linkDcid_ok {ids : Ids} {n : Nat} (h : n ∈ Cid.keys ids.dcids.inner) (pid : Nat) :
    ∃ e, ids.dcids.get n = some e ∧ ids.linkDcid n pid =
      (.ok (), { ids with dcids := { ids.dcids with inner := Deque.put ids.dcids.inner { e with path := some pid } } }) := by
  unfold Ids.linkDcid
  cases hg : ids.dcids.get n with
  | none => exact absurd h (Cid.find_seq_none.mp hg)
  | some e => exact ⟨e, rfl, rfl⟩

theorem lowest_keys {ids : Ids} {n : Nat} (h : ids.lowestAvailable = some n) : n ∈ Cid.keys ids.dcids.inner := by
  obtain ⟨e, he, hn, _⟩ := lowestAvailable_mem h
  exact hn ▸ List.mem_map.mpr ⟨e, he, rfl⟩

/-- `J l` is kept by the elementary changes; a path may become active only if it is in `l`.
`W` holds for the frames received. -/
structure Walk (J : List Nat → Conn → Prop) (W : Frame → Prop) : Prop where
  sub : ∀ {l l' c}, (∀ q ∈ l', q ∈ l) → J l c → J l' c
  active : ∀ {l c pid}, J l c → c.paths.activeId = some pid → J (pid :: l) c
  kept : ∀ {l c}, J l c → ∀ k ∈ c.kept, ∀ f ∈ k.frames, W f
  soft : ∀ {l c m}, J l c → Rel Soft c.paths m → J l { c with paths := m }
  rest : ∀ {l c c'}, J l c → c'.paths = c.paths → c'.ids.dcids = c.ids.dcids → c'.ids.zeroLenDcid = c.ids.zeroLenDcid →
    c'.server = c.server → c'.noReuse = c.noReuse → (c.closed = true → c'.closed = true) →
    (∀ k ∈ c'.kept, k ∈ c.kept ∨ ∀ f ∈ k.frames, W f) → J l c'
  zero : ∀ {l c pid p}, J l c → c.ids.zeroLenDcid = true → c.paths.get pid = some p → p.dcid = none →
    J l { c with paths := c.paths.upd pid fun p => { p with dcid := some 0 } }
  link : ∀ {l c pid p n}, J l c → c.ids.lowestAvailable = some n → c.paths.get pid = some p → p.dcid = none →
    J l { c with ids := (c.ids.linkDcid n pid).2, paths := c.paths.upd pid fun p => { p with dcid := some n } }
  newCid : ∀ {l c} cid seq token rpt, J l c → W (.newCid cid seq token rpt) → J l (c.onNewCid cid seq token rpt).2
  insert : ∀ {c p pid m n}, J [] c → Inserted c.paths p pid m → p.dcid = none → p.active = false → p.state = .unknown →
    J [pid] { c with paths := m, nextUid := n }
  client : ∀ {c p pid m n k}, J [] c → Inserted c.paths p pid m → p.dcid = some n → p.active = false → p.state = .unknown →
    (if c.ids.zeroLenDcid then some 0 else c.ids.lowestAvailable) = some n →
    J [pid] { c with paths := m, nextUid := k, ids := (c.ids.linkDcid n pid).2 }
  clientKeys : ∀ {l c}, J l c → c.ids.zeroLenDcid = true → 0 ∈ Cid.keys c.ids.dcids.inner
  act : ∀ {l c pid p}, J l c → pid ∈ l → c.paths.get pid = some p → p.dcid.isSome → J l (c.setActive pid).2
  migrated : ∀ {l c pid}, J l c → pid ∈ l → c.server = true → J l (c.onPeerMigrated pid).2

namespace Walk

variable {J : List Nat → Conn → Prop} {W : Frame → Prop} {l : List Nat}

/-- The common case of `rest`. -/
theorem ids (hJ : Walk J W) (h : J l c) {ids : Ids} (hd : ids.dcids = c.ids.dcids) (hz : ids.zeroLenDcid = c.ids.zeroLenDcid) :
    J l { c with ids := ids } := hJ.rest h rfl hd hz rfl rfl (fun h => h) fun _ hk => Or.inl hk

theorem upd (hJ : Walk J W) (h : J l c) {pid : Nat} {f : Path → Path} (hf : ∀ p, Soft p (f p)) : J l { c with paths := c.paths.upd pid f } :=
  hJ.soft h (Rel.upd Soft.refl fun p _ => hf p)

theorem onRetire (hJ : Walk J W) (h : J l c) (seq : Nat) (cid : Bytes) : J l (c.onRetire seq cid).2 := by
  have hr : ∀ r ids, c.ids.retireScid seq cid = (r, ids) → J l { c with ids := ids } := by
    intro r ids hr
    have hd : ids.dcids = c.ids.dcids ∧ ids.zeroLenDcid = c.ids.zeroLenDcid := by
      have : ids = (c.ids.retireScid seq cid).2 := by rw [hr]
      rw [this]
      unfold Ids.retireScid
      split
      · exact ⟨rfl, rfl⟩
      · split
        · exact ⟨rfl, rfl⟩
        · exact ⟨rfl, rfl⟩
        · dsimp only
          split
          · exact ⟨rfl, rfl⟩
          · split <;> exact ⟨rfl, rfl⟩
    exact hJ.ids h hd.1 hd.2
  unfold Conn.onRetire
  split
  · exact h
  · split
    · rename_i heq; exact hr _ _ heq
    · rename_i heq; exact hr _ _ heq
    · rename_i pid ids heq
      have h1 := hr _ _ heq
      dsimp only
      split
      · exact h1
      · split
        · exact hJ.upd h1 fun p => ⟨rfl, rfl, fun h => h⟩
        · exact h1

theorem onFrame (hJ : Walk J W) (h : J l c) (pid : Nat) (cid : Bytes) (f : Frame) (hW : W f) : J l (c.onFrame pid cid f).2 := by
  cases f with
  | newCid cid' seq token rpt => exact hJ.newCid cid' seq token rpt h hW
  | retire seq => exact hJ.onRetire h seq cid
  | challenge d =>
    simp only [Conn.onFrame]
    split
    · exact h
    · exact hJ.upd h fun p => Soft.chal p d
  | response d =>
    simp only [Conn.onFrame]
    split
    · exact h
    · rename_i m hm
      exact hJ.soft h (Soft.onResponse hm)
  | padding => exact h
  | other => exact h

theorem onFrames (hJ : Walk J W) (h : J l c) (pid : Nat) (cid : Bytes) (early : Bool) (fs : List Frame) (hW : ∀ f ∈ fs, W f) :
    J l (c.onFrames pid cid early fs).2 := by
  induction fs generalizing c with
  | nil => exact h
  | cons f fs ih =>
    simp only [Conn.onFrames]
    split
    · exact h
    · have h1 := hJ.onFrame h pid cid f (hW f List.mem_cons_self)
      split
      · rename_i heq; rw [heq] at h1; exact h1
      · rename_i heq
        rw [heq] at h1
        exact ih h1 fun f hf => hW f (List.mem_cons_of_mem _ hf)

theorem allocate (hJ : Walk J W) (h : J l c) (ps : List Nat) : J l (c.allocate ps).2 := by
  induction ps generalizing c with
  | nil => exact h
  | cons pid ps ih =>
    simp only [Conn.allocate]
    split
    · exact ih h
    · rename_i p hp
      split
      · exact ih h
      · rename_i hd
        have hd : p.dcid = none := by cases hc : p.dcid with | none => rfl | some x => rw [hc] at hd; exact absurd rfl hd
        split
        · rename_i hz
          exact ih (hJ.zero h hz hp hd)
        · split
          · exact h
          · rename_i n hn
            obtain ⟨e, _, hl⟩ := linkDcid_ok (lowest_keys hn) pid
            have h1 := hJ.link h hn hp hd
            rw [hl] at h1 ⊢
            exact ih h1

theorem process (hJ : Walk J W) (h : J l c) (pid : Nat) (hpid : pid ∈ l) (cid : Bytes) (early : Bool) (fs : List Frame) (newest : Bool)
    (hW : ∀ f ∈ fs, W f) : J l (c.process pid cid early fs newest).2 := by
  unfold Conn.process
  have h1 := hJ.onFrames h pid cid early fs hW
  split
  · rename_i heq; rw [heq] at h1; exact h1
  · rename_i c1 heq
    rw [heq] at h1
    have h2 := hJ.allocate h1 (List.range c1.paths.slots.length)
    split
    · rename_i heq2; rw [heq2] at h2; exact h2
    · rename_i heq2
      rw [heq2] at h2
      split
      · exact h2
      · unfold Conn.migration
        split
        · exact h2
        · split
          · rename_i hs
            exact hJ.migrated h2 hpid hs.1
          · exact h2

theorem recvLong (hJ : Walk J W) (h : J l c) (hs early : Bool) (fs : List Frame) (newest : Bool) (hW : ∀ f ∈ fs, W f) :
    J l (c.recvLong hs early fs newest).2 := by
  unfold Conn.recvLong
  split
  · exact h
  · rename_i pid ha
    have h1 := hJ.process (hJ.active h ha) pid List.mem_cons_self [] early fs newest hW
    have h1 := hJ.sub (l' := l) (fun q hq => List.mem_cons_of_mem _ hq) h1
    split
    · rename_i heq; rw [heq] at h1; exact h1
    · rename_i heq
      rw [heq] at h1
      unfold Conn.verify
      split
      · exact hJ.upd h1 fun p => ⟨rfl, rfl, fun h => h⟩
      · exact h1

theorem linkScid_dcids (s : Ids) (seq pid : Nat) : (s.linkScid seq pid).2.dcids = s.dcids ∧ (s.linkScid seq pid).2.zeroLenDcid = s.zeroLenDcid := by
  unfold Ids.linkScid
  split <;> exact ⟨rfl, rfl⟩

theorem seenOn (hJ : Walk J W) (h : J l c) (pid seq : Nat) (cid : Bytes) : J l (c.seenOn pid seq cid).2 := by
  unfold Conn.seenOn
  split
  · exact h
  · split
    · exact h
    · dsimp only
      have h1 := hJ.upd (pid := pid) (f := fun p => { p with scid := some seq }) h fun p => ⟨rfl, rfl, fun h => h⟩
      have hd := linkScid_dcids c.ids seq pid
      split
      · rename_i heq; rw [heq] at hd; exact hJ.ids h1 hd.1 hd.2
      · rename_i heq; rw [heq] at hd; exact hJ.ids h1 hd.1 hd.2

theorem seenOn_pid (c : Conn) (pid seq : Nat) (cid : Bytes) {k : Nat} {c1 : Conn} (h : c.seenOn pid seq cid = (.ok k, c1)) : k = pid := by
  unfold Conn.seenOn at h
  split at h
  · cases h
  · split at h
    · cases h; rfl
    · dsimp only at h
      split at h
      · cases h
      · cases h; rfl

/-- The path of a packet is known to be fit, or it is new. -/
theorem recvPath (hJ : Walk J W) (hi : Inv c) {pid : Option Nat} {a : Nat × Nat} {cid : Bytes} {left : Nat} {r : Conn.Res Nat}
    (ha : pid = none → c.paths.fromAddrs a = none) (h : J l c) (hl : ∀ q, pid = some q → q ∈ l)
    (hr : c.recvPath pid a cid left = some r) : (∃ e, r.1 = .error e ∧ J [] r.2) ∨ ∃ k, r.1 = .ok k ∧ J (pid.elim [k] fun _ => l) r.2 ∧
      k ∈ pid.elim [k] fun _ => l := by
  have create : ∀ (old : Option Path) (seq : Nat), c.paths.fromAddrs a = none → c.createRecv a seq left old = some r →
      (∃ e, r.1 = .error e ∧ J [] r.2) ∨ ∃ k, r.1 = .ok k ∧ J [k] r.2 := by
    intro old seq hnone hr
    unfold Conn.createRecv at hr
    split at hr
    · cases hr
    · rename_i k m hins
      have hr := Option.some.inj hr
      have hm := hJ.insert (n := c.nextUid + 1) (hJ.sub (l' := []) (fun q hq => by cases hq) h)
        (insertPath_spec (p := c.newPath a seq left) hi.table hnone hins) rfl rfl rfl
      subst hr
      cases old with
      | some old =>
        simp only [Conn.noteReuse]
        exact Or.inr ⟨k, rfl, hJ.soft hm (Rel.notify Soft.refl _ _)⟩
      | none =>
        simp only [Conn.noteReuse]
        have hd := linkScid_dcids c.ids seq k
        split
        · rename_i heq
          have heq : c.ids.linkScid seq k = _ := heq
          rw [heq] at hd
          exact Or.inl ⟨_, rfl, hJ.sub (l := [k]) (fun q hq => by cases hq) (hJ.ids hm hd.1 hd.2)⟩
        · rename_i heq
          have heq : c.ids.linkScid seq k = _ := heq
          rw [heq] at hd
          exact Or.inr ⟨k, rfl, hJ.ids hm hd.1 hd.2⟩
  have nil : J [] c := hJ.sub (l' := []) (fun q hq => by cases hq) h
  have fin : pid = none → ((∃ e, r.1 = .error e ∧ J [] r.2) ∨ ∃ k, r.1 = .ok k ∧ J [k] r.2) →
      (∃ e, r.1 = .error e ∧ J [] r.2) ∨ ∃ k, r.1 = .ok k ∧ J (pid.elim [k] fun _ => l) r.2 ∧ k ∈ pid.elim [k] fun _ => l := by
    intro hp hc
    subst hp
    rcases hc with hc | ⟨k, h1, h2⟩
    · exact Or.inl hc
    · exact Or.inr ⟨k, h1, h2, List.mem_singleton.mpr rfl⟩
  unfold Conn.recvPath at hr
  split at hr
  · cases hr; exact Or.inl ⟨_, rfl, nil⟩
  · rename_i e _
    cases pid with
    | some pid =>
      have hr := Option.some.inj hr
      have hs := hJ.seenOn h pid e.seq cid
      rcases hx : c.seenOn pid e.seq cid with ⟨x, c1⟩
      rw [hx] at hs hr
      subst hr
      cases x with
      | error x => exact Or.inl ⟨x, rfl, hJ.sub (l := l) (fun q hq => by cases hq) hs⟩
      | ok k =>
        have := seenOn_pid c pid e.seq cid hx
        subst this
        exact Or.inr ⟨k, rfl, hs, hl k rfl⟩
    | none =>
      dsimp only at hr
      split at hr
      · exact fin rfl (create _ _ (ha rfl) hr)
      · split at hr
        · cases hr; exact Or.inl ⟨_, rfl, nil⟩
        · exact fin rfl (create _ _ (ha rfl) hr)

/-- The frames of a packet. -/
def _root_.Verif.Path.Pkt.frames : Pkt → List Frame
  | .long _ _ => []
  | .early fs _ _ => fs
  | .short _ fs _ => fs

/-- Whether a packet is taken to be on the path it came on. -/
def _root_.Verif.Path.Pkt.isShort : Pkt → Bool
  | .short .. => true
  | _ => false

theorem recvSingle (hJ : Walk J W) (hWo : W .other) (hi : Inv c) {pid : Option Nat} {a : Nat × Nat} {left : Nat} {pkt : Pkt} {r : Conn.Res Nat}
    (ha : pid = none → c.paths.fromAddrs a = none) (h : J l c) (hl : pkt.isShort = true → ∀ q, pid = some q → q ∈ l)
    (hW : ∀ f ∈ pkt.frames, W f) (hr : c.recvSingle pid a left pkt = some r) :
    J [] r.2 ∧ (pkt.isShort = false → J l r.2) := by
  have nil : ∀ {c : Conn} {l : List Nat}, J l c → J [] c := fun h => hJ.sub (l' := []) (fun q hq => by cases hq) h
  cases pkt with
  | long hs size =>
    simp only [Conn.recvSingle] at hr
    have h1 := hJ.recvLong h hs false [.other] true fun f hf => by rw [List.mem_singleton.mp hf]; exact hWo
    split at hr <;> (rename_i heq; rw [heq] at h1; cases hr; exact ⟨nil h1, fun _ => h1⟩)
  | early fs nw size =>
    simp only [Conn.recvSingle] at hr
    split at hr
    · have h1 := hJ.recvLong h false true fs nw hW
      split at hr <;> (rename_i heq; rw [heq] at h1; cases hr; exact ⟨nil h1, fun _ => h1⟩)
    · split at hr
      · cases hr
        have h1 := hJ.rest (c' := { c with kept := c.kept ++ [{ addr := a, frames := fs, newest := nw, size := size }] })
          h rfl rfl rfl rfl rfl (fun h => h) fun k hk => by
            rcases List.mem_append.mp hk with hk | hk
            · exact Or.inl hk
            · rw [List.mem_singleton.mp hk]; exact Or.inr hW
        exact ⟨nil h1, fun _ => h1⟩
      · cases hr
  | short cid fs nw =>
    refine ⟨?_, fun h => by cases h⟩
    simp only [Conn.recvSingle] at hr
    split at hr
    · cases hr
    · rename_i e c1 heq
      cases hr
      rcases hJ.recvPath hi ha h (hl rfl) heq with ⟨_, _, h1⟩ | ⟨_, h1, _⟩
      · exact h1
      · cases h1
    · rename_i k c1 heq
      rcases hJ.recvPath hi ha h (hl rfl) heq with ⟨_, h1, _⟩ | ⟨k', h1, h2, h3⟩
      · cases h1
      · cases h1
        have h4 := hJ.process h2 k h3 cid false fs nw hW
        split at hr <;> (rename_i heq2; rw [heq2] at h4; cases hr; exact nil h4)

theorem recvLoop (hJ : Walk J W) (hWo : W .other) (hi : Inv c) {pid : Option Nat} {a : Nat × Nat} {left : Nat} {pkts : List Pkt}
    (ha : pid = none → c.paths.fromAddrs a = none) (h : J l c) (hl : (∃ pkt ∈ pkts, pkt.isShort = true) → ∀ q, pid = some q → q ∈ l)
    (hW : ∀ pkt ∈ pkts, ∀ f ∈ pkt.frames, W f) : J [] (c.recvLoop pid a left pkts).2 := by
  have nil : ∀ {c : Conn} {l : List Nat}, J l c → J [] c := fun h => hJ.sub (l' := []) (fun q hq => by cases hq) h
  induction pkts generalizing c left with
  | nil => exact nil h
  | cons pkt ps ih =>
    simp only [Conn.recvLoop]
    split
    · exact nil h
    · split
      · exact nil h
      · rename_i e c1 heq
        have h1 := (hJ.recvSingle hWo hi ha h (fun hs => hl ⟨pkt, List.mem_cons_self, hs⟩) (hW pkt List.mem_cons_self) heq).1
        exact hJ.rest h1 rfl rfl rfl rfl rfl (fun _ => rfl) fun k hk => Or.inl hk
      · rename_i n c1 heq
        have h1 := hJ.recvSingle hWo hi ha h (fun hs => hl ⟨pkt, List.mem_cons_self, hs⟩) (hW pkt List.mem_cons_self) heq
        have h2 := SameId.fam.recvSingle hi ha (fun _ _ => trivial) (fun _ _ => trivial) heq
        cases hs : pkt.isShort with
        | true =>
          have hn : n = left := by
            cases pkt with
            | long | early => cases hs
            | short cid fs nw =>
              simp only [Conn.recvSingle] at heq
              split at heq
              · cases heq
              · cases heq
              · split at heq
                · cases heq
                · cases heq; rfl
          subst hn
          rw [Nat.sub_self]
          have : c1.recvLoop pid a 0 ps = (false, c1) := by
            cases ps with
            | nil => rfl
            | cons x ps => simp only [Conn.recvLoop]; rw [if_pos (Or.inr trivial)]
          rw [this]
          exact h1.1
        | false =>
          rcases h2.2 n rfl with hn | ⟨haddr, hzero⟩
          · subst hn
            rw [Nat.sub_self]
            have : c1.recvLoop pid a 0 ps = (false, c1) := by
              cases ps with
              | nil => rfl
              | cons x ps => simp only [Conn.recvLoop]; rw [if_pos (Or.inr trivial)]
            rw [this]
            exact h1.1
          · have haddr : c1.paths.fromAddrs a = c.paths.fromAddrs a := haddr
            exact ih hzero.inv (fun hp => by rw [haddr]; exact ha hp) (h1.2 hs)
              (fun ⟨p, hp, hps⟩ => hl ⟨p, List.mem_cons_of_mem _ hp, hps⟩) fun p hp => hW p (List.mem_cons_of_mem _ hp)

theorem recvOne (hJ : Walk J W) (hWo : W .other) (hi : Inv c) {a : Nat × Nat} {len : Nat} {pkts : List Pkt} (h : J [] c)
    (hl : (∃ pkt ∈ pkts, pkt.isShort = true) → ∀ q, c.paths.fromAddrs a = some q → J [q] c)
    (hW : ∀ pkt ∈ pkts, ∀ f ∈ pkt.frames, W f) : J [] (c.recvOne a len pkts).2 := by
  unfold Conn.recvOne
  split
  · exact h
  · split
    · rename_i pid hpid
      split
      · exact h
      · have hinv : Inv (c.credit pid len) := by
          unfold Conn.credit
          refine (Moves.upd (R := SameId) (F := fun _ => True) hi (fun _ => ⟨rfl, rfl, rfl⟩) (fun _ _ h => h) fun q _ => ?_).inv
          split <;> exact ⟨rfl, rfl, rfl⟩
        have hc : ∀ {l : List Nat}, J l c → J l (c.credit pid len) := fun h => by
          unfold Conn.credit
          refine hJ.upd h fun p => ?_
          split <;> exact ⟨rfl, rfl, fun h => h⟩
        by_cases hs : ∃ pkt ∈ pkts, pkt.isShort = true
        · exact hJ.recvLoop (l := [pid]) hWo hinv (fun h => by cases h) (hc (hl hs pid hpid)) (fun _ q hq => by cases hq; exact List.mem_cons_self) hW
        · exact hJ.recvLoop (l := []) hWo hinv (fun h => by cases h) (hc h) (fun hx => absurd hx hs) hW
    · rename_i hnone
      split
      · exact hJ.recvLoop (l := []) (pid := none) hWo hi (fun _ => hnone) h (fun _ q hq => by cases hq) hW
      · exact h

theorem replay (hJ : Walk J W) (hWo : W .other) (hi : Inv c) (h : J [] c) (ks : List Kept) (hk : ∀ k ∈ ks, ∀ f ∈ k.frames, W f) :
    J [] (c.replay ks) := by
  induction ks generalizing c with
  | nil => exact h
  | cons k ks ih =>
    simp only [Conn.replay]
    have h1 := hJ.recvOne (a := k.addr) (len := k.size) (pkts := [.early k.frames k.newest k.size]) hWo hi h
      (fun ⟨p, hp, hs⟩ => by rw [List.mem_singleton.mp hp] at hs; cases hs)
      (fun p hp => by rw [List.mem_singleton.mp hp]; exact hk k List.mem_cons_self)
    have h2 := SameId.fam.recvOne (a := k.addr) (len := k.size) (pkts := [.early k.frames k.newest k.size]) hi
      (fun _ _ _ _ => trivial) (fun _ _ => trivial)
    split
    · rename_i heq; rw [heq] at h1; exact h1
    · rename_i heq
      rw [heq] at h1 h2
      exact ih h2.inv h1 fun k hk' => hk k (List.mem_cons_of_mem _ hk')

theorem flush (hJ : Walk J W) (hWo : W .other) (hi : Inv c) (h : J [] c) : J [] c.flush := by
  unfold Conn.flush
  split
  · have h0 : J [] { c with kept := [] } := hJ.rest h rfl rfl rfl rfl rfl (fun h => h) fun k hk => by cases hk
    exact hJ.replay hWo (hi.flags c.established c.earlyKey c.closed []) h0 c.kept (hJ.kept h)
  · exact h

theorem recv (hJ : Walk J W) (hWo : W .other) (hi : Inv c) {a : Nat × Nat} {len : Nat} {pkts : List Pkt} (h : J [] c)
    (hl : (∃ pkt ∈ pkts, pkt.isShort = true) → ∀ q, c.paths.fromAddrs a = some q → J [q] c)
    (hW : ∀ pkt ∈ pkts, ∀ f ∈ pkt.frames, W f) : J [] (c.recv a len pkts) := by
  have h1 := hJ.recvOne (a := a) (len := len) hWo hi h hl hW
  have h2 := SameId.fam.recvOne (a := a) (len := len) (pkts := pkts) hi (fun _ _ _ _ => trivial) (fun _ _ => trivial)
  unfold Conn.recv
  split
  · rename_i heq; rw [heq] at h1; exact h1
  · rename_i heq
    rw [heq] at h1 h2
    exact hJ.flush hWo h2.inv h1

theorem send (hJ : Walk J W) (hWo : W .other) (hi : Inv c) (h : J [] c) (src dst : Option Nat) (outLen now : Nat) (pkts : List Conn.Out) :
    J [] (c.send src dst outLen now pkts).2 := by
  have hf := hJ.flush hWo hi h
  rcases send_spec c src dst outLen now pkts with ⟨h1, _⟩ | ⟨pid, p, os, _, _, _, h1, _⟩
  · rw [h1]; exact hf
  · rw [h1]; exact hJ.upd hf fun p => Soft.sentAll p os now

theorem createClient (hJ : Walk J W) (hi : Inv c) (h : J [] c) (a : Nat × Nat) (hn : c.paths.fromAddrs a = none) :
    J [] (c.createClient a).2 ∧ ∀ pid, (c.createClient a).1 = .ok pid →
      J [pid] (c.createClient a).2 ∧ ∃ p, (c.createClient a).2.paths.get pid = some p ∧ p.dcid.isSome := by
  unfold Conn.createClient
  split
  · exact ⟨h, fun _ h => by cases h⟩
  split
  · exact ⟨h, fun _ h => by cases h⟩
  split
  · exact ⟨h, fun _ h => by cases h⟩
  · rename_i n hav
    split
    · exact ⟨h, fun _ h => by cases h⟩
    · rename_i pid m hins
      have hs := insertPath_spec (p := { Path.new c.nextUid a.1 a.2 c.recvMax false with dcid := some n }) hi.table hn hins
      have hm := hJ.client (k := c.nextUid + 1) h hs rfl rfl rfl hav
      have hk : n ∈ Cid.keys c.ids.dcids.inner := by
        split at hav
        · rename_i hz
          cases hav
          exact hJ.clientKeys h hz
        · exact lowest_keys hav
      obtain ⟨e, _, hl⟩ := linkDcid_ok hk pid
      dsimp only
      rw [hl] at hm ⊢
      dsimp only at hm ⊢
      refine ⟨hJ.sub (l := [pid]) (fun q hq => by cases hq) hm, fun q hq => ?_⟩
      cases hq
      exact ⟨hm, _, hs.self, rfl⟩

theorem probePath (hJ : Walk J W) (hi : Inv c) (h : J [] c) (a : Nat × Nat) : J [] (c.probePath a).2 := by
  have h1 : J [] (c.findOrCreate a).2 := by
    unfold Conn.findOrCreate
    split
    · exact h
    · rename_i hn; exact (hJ.createClient hi h a hn).1
  unfold Conn.probePath
  split
  · rename_i heq; rw [heq] at h1; exact h1
  · rename_i pid c1 heq
    rw [heq] at h1
    split
    · exact h1
    · dsimp only
      have h2 := hJ.upd (pid := pid) (f := (·.request)) h1 fun p => ⟨rfl, rfl, fun h => h⟩
      split
      · exact h2
      · exact h2

theorem migrate (hJ : Walk J W) (hi : Inv c) (h : J [] c) (a : Nat × Nat) (hl : ∀ q, c.paths.fromAddrs a = some q → J [q] c) :
    J [] (c.migrate a).2 := by
  have nil : ∀ {c : Conn} {l : List Nat}, J l c → J [] c := fun h => hJ.sub (l' := []) (fun q hq => by cases hq) h
  unfold Conn.migrate
  split
  · exact h
  split
  · rename_i pid hpid
    split
    · exact h
    · rename_i p hp
      split
      · exact h
      · have hq := hl pid hpid
        have h1 : J [pid] (c.takeDcid pid p).2 ∧ ((c.takeDcid pid p).1 = .ok () → ∃ q, (c.takeDcid pid p).2.paths.get pid = some q ∧ q.dcid.isSome) := by
          unfold Conn.takeDcid
          split
          · exact ⟨hq, fun h => by cases h⟩
          · split
            · rename_i hd; exact ⟨hq, fun _ => ⟨p, hp, hd⟩⟩
            · rename_i hd
              have hd : p.dcid = none := by cases hc : p.dcid with | none => rfl | some x => rw [hc] at hd; exact absurd rfl hd
              split
              · exact ⟨hq, fun h => by cases h⟩
              · rename_i n hn
                obtain ⟨e, _, hlk⟩ := linkDcid_ok (lowest_keys hn) pid
                have h1 := hJ.link hq hn hp hd
                rw [hlk] at h1 ⊢
                refine ⟨h1, fun _ => ⟨{ p with dcid := some n }, ?_, rfl⟩⟩
                dsimp only
                rw [PathMap.get_upd, if_pos rfl, hp]
                rfl
        split
        · rename_i heq; rw [heq] at h1; exact nil h1.1
        · rename_i heq
          rw [heq] at h1
          obtain ⟨q, hq, hd⟩ := h1.2 rfl
          exact nil (hJ.act h1.1 List.mem_cons_self hq hd)
  · rename_i hn
    have h1 := hJ.createClient hi h a hn
    split
    · rename_i heq; rw [heq] at h1; exact h1.1
    · rename_i heq
      rw [heq] at h1
      obtain ⟨h2, q, hq, hd⟩ := h1.2 _ rfl
      exact nil (hJ.act h2 List.mem_cons_self hq hd)

/-- The operations that do not touch destination connection IDs or the active path. -/
theorem easy (hJ : Walk J W) (h : J [] c) (op : Op)
    (ho : match op with
      | .newScid .. | .setLimit _ | .establish | .earlyKey | .takeNew | .takeRetire .. | .lostNew _ | .lostRetire _ | .close => True
      | _ => False) : J [] (c.step op) := by
  have tail : ∀ {ids : Ids}, ids.dcids = c.ids.dcids ∧ ids.zeroLenDcid = c.ids.zeroLenDcid → J [] { c with ids := ids } := fun hd => hJ.ids h hd.1 hd.2
  have adv : ∀ (s : Ids) n b, (s.markAdvertise n b).dcids = s.dcids ∧ (s.markAdvertise n b).zeroLenDcid = s.zeroLenDcid := by
    intro s n b; unfold Ids.markAdvertise; split <;> exact ⟨rfl, rfl⟩
  have ret : ∀ (s : Ids) n b, (s.markRetire n b).2.dcids = s.dcids ∧ (s.markRetire n b).2.zeroLenDcid = s.zeroLenDcid := by
    intro s n b
    obtain ⟨r, hr⟩ := Cid.markRetire_frame s n b
    rw [hr]; exact ⟨rfl, rfl⟩
  cases op with
  | recv | send | timeout | probe | migrate | retireDcid => cases ho
  | newScid cid token r =>
    refine tail ?_
    have cont : ∀ s : Ids, (s.newScidCont cid (some token) true none).2.dcids = s.dcids ∧
        (s.newScidCont cid (some token) true none).2.zeroLenDcid = s.zeroLenDcid := by
      intro s
      rcases Cid.newScidCont_cases s cid (some token) true none with ⟨r, h1, _⟩ | ⟨d, h1, _⟩
      · rw [h1]; exact ⟨rfl, rfl⟩
      · rw [h1]; exact adv _ _ _
    unfold Ids.newScid
    split
    · exact ⟨rfl, rfl⟩
    · split
      · split
        · exact ⟨rfl, rfl⟩
        · split
          · exact ⟨rfl, rfl⟩
          · exact cont _
      · exact cont _
  | setLimit v => refine tail ?_; unfold Ids.setSourceLimit; dsimp only; split <;> exact ⟨rfl, rfl⟩
  | establish => exact hJ.rest (c' := { c with established := true, kept := [] }) h rfl rfl rfl rfl rfl (fun h => h) fun k hk => by cases hk
  | earlyKey => exact hJ.rest (c' := { c with earlyKey := true }) h rfl rfl rfl rfl rfl (fun h => h) fun k hk => Or.inl hk
  | takeNew =>
    refine tail ?_
    unfold Ids.sendNew
    split
    · exact ⟨rfl, rfl⟩
    · split
      · exact ⟨rfl, rfl⟩
      · exact adv _ _ _
  | takeRetire seq u =>
    refine tail ?_
    unfold Ids.sendRetire
    split
    · exact ⟨rfl, rfl⟩
    · split
      · exact ⟨rfl, rfl⟩
      · exact ret _ _ _
  | lostNew seq => exact tail (adv _ _ _)
  | lostRetire seq => exact tail (ret _ _ _)
  | close => exact hJ.rest (c' := { c with closed := true }) h rfl rfl rfl rfl rfl (fun _ => rfl) fun k hk => Or.inl hk

end Walk
end Verif.Path
