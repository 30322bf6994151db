import Verif.Path.Run

/-!
How the operations change the paths, each path on its own: a relation that holds for every
elementary change holds between a path before and after any operation.
-/

namespace Verif.Path
open Verif
open Verif.Cid (Ids Err)

variable {R : Path → Path → Prop} {m m' m'' : PathMap}

theorem PathMap.get_upd (m : PathMap) (pid : Nat) (f : Path → Path) (i : Nat) :
    (m.upd pid f).get i = if pid = i then (m.get i).map f else m.get i := by
  unfold PathMap.get PathMap.upd
  dsimp only
  rw [List.getElem?_modify]
  by_cases h : pid = i
  · rw [if_pos h]
    simp only [h, if_true]
    cases m.slots[i]? with
    | none => rfl
    | some s => cases s <;> rfl
  · rw [if_neg h]
    simp only [h, if_false]
    cases m.slots[i]? <;> rfl

theorem PathMap.find_some {m : PathMap} {t : Path → Bool} {i : Nat} (h : m.find t = some i) : ∃ p, m.get i = some p ∧ t p = true := by
  unfold PathMap.find at h
  rw [List.findIdx?_eq_some_iff_getElem] at h
  obtain ⟨hi, ht, _⟩ := h
  unfold PathMap.get
  rw [List.getElem?_eq_getElem hi]
  cases hs : m.slots[i] with
  | none => rw [hs] at ht; cases ht
  | some p => rw [hs] at ht; exact ⟨p, rfl, ht⟩

theorem PathMap.find_first {m : PathMap} {t : Path → Bool} {i j : Nat} {p : Path} (h : m.find t = some i) (hp : m.get j = some p) (ht : t p = true) :
    i ≤ j := by
  unfold PathMap.find at h
  rw [List.findIdx?_eq_some_iff_getElem] at h
  obtain ⟨hi, _, hmin⟩ := h
  apply Nat.le_of_not_lt
  intro hj
  apply hmin j hj
  unfold PathMap.get at hp
  rw [List.getElem?_eq_getElem (by omega)] at hp
  have hp : m.slots[j] = some p := hp
  rw [hp]
  exact ht

theorem PathMap.find_none {m : PathMap} {t : Path → Bool} (h : m.find t = none) {i : Nat} {p : Path} (hp : m.get i = some p) : t p = false := by
  unfold PathMap.find at h
  rw [List.findIdx?_eq_none_iff] at h
  unfold PathMap.get at hp
  cases hs : m.slots[i]? with
  | none => rw [hs] at hp; cases hp
  | some s =>
    rw [hs] at hp
    have hp : s = some p := hp
    have := h s (List.mem_of_getElem? hs)
    rw [hp] at this
    simpa using this

theorem PathMap.get_lt {m : PathMap} {i : Nat} {p : Path} (h : m.get i = some p) : i < m.slots.length := by
  unfold PathMap.get at h
  by_cases hl : i < m.slots.length
  · exact hl
  · rw [List.getElem?_eq_none (by omega)] at h; cases h

/-- Every path is related to the one in the same slot before, and nothing but the paths
and the events changed. -/
structure Rel (R : Path → Path → Prop) (m m' : PathMap) : Prop where
  len : m'.slots.length = m.slots.length
  free : m'.free = m.free
  addrs : m'.addrs = m.addrs
  maxPaths : m'.maxPaths = m.maxPaths
  server : m'.server = m.server
  fwd : ∀ i p, m.get i = some p → ∃ q, m'.get i = some q ∧ R p q
  bwd : ∀ i q, m'.get i = some q → ∃ p, m.get i = some p ∧ R p q

theorem Rel.refl (h : ∀ p, R p p) (m : PathMap) : Rel R m m :=
  ⟨rfl, rfl, rfl, rfl, rfl, fun _ p hp => ⟨p, hp, h p⟩, fun _ p hp => ⟨p, hp, h p⟩⟩

theorem Rel.trans (h : ∀ p q r, R p q → R q r → R p r) (h1 : Rel R m m') (h2 : Rel R m' m'') : Rel R m m'' := by
  refine ⟨h2.len.trans h1.len, h2.free.trans h1.free, h2.addrs.trans h1.addrs, h2.maxPaths.trans h1.maxPaths, h2.server.trans h1.server, ?_, ?_⟩
  · intro i p hp
    obtain ⟨q, hq, r1⟩ := h1.fwd i p hp
    obtain ⟨r, hr, r2⟩ := h2.fwd i q hq
    exact ⟨r, hr, h _ _ _ r1 r2⟩
  · intro i r hr
    obtain ⟨q, hq, r2⟩ := h2.bwd i r hr
    obtain ⟨p, hp, r1⟩ := h1.bwd i q hq
    exact ⟨p, hp, h _ _ _ r1 r2⟩

theorem Rel.upd (hrefl : ∀ p, R p p) {pid : Nat} {f : Path → Path} (h : ∀ p, m.get pid = some p → R p (f p)) : Rel R m (m.upd pid f) := by
  refine ⟨by simp [PathMap.upd], rfl, rfl, rfl, rfl, ?_, ?_⟩
  · intro i p hp
    rw [PathMap.get_upd]
    split
    · rename_i hi; subst hi; exact ⟨f p, by rw [hp]; rfl, h p hp⟩
    · exact ⟨p, hp, hrefl p⟩
  · intro i q hq
    rw [PathMap.get_upd] at hq
    split at hq
    · rename_i hi
      subst hi
      cases hp : m.get pid with
      | none => rw [hp] at hq; cases hq
      | some p => rw [hp] at hq; cases hq; exact ⟨p, rfl, h p hp⟩
    · exact ⟨q, hq, hrefl q⟩

theorem Rel.notify (hrefl : ∀ p, R p p) (m : PathMap) (e : Event) : Rel R m (m.notify e) :=
  ⟨rfl, rfl, rfl, rfl, rfl, fun _ p hp => ⟨p, hp, hrefl p⟩, fun _ p hp => ⟨p, hp, hrefl p⟩⟩

theorem Rel.mono {S : Path → Path → Prop} (h : Rel R m m') (hs : ∀ p q, R p q → S p q) : Rel S m m' :=
  ⟨h.len, h.free, h.addrs, h.maxPaths, h.server,
    fun i p hp => let ⟨q, hq, r⟩ := h.fwd i p hp; ⟨q, hq, hs _ _ r⟩,
    fun i q hq => let ⟨p, hp, r⟩ := h.bwd i q hq; ⟨p, hp, hs _ _ r⟩⟩

/-- The elementary changes while a packet is processed; `D` holds for the data of the
PATH_RESPONSE frames in it. -/
structure Elem (R : Path → Path → Prop) (D : Nat → Prop) : Prop where
  refl : ∀ p, R p p
  trans : ∀ p q r, R p q → R q r → R p r
  dcid : ∀ p o, R p { p with dcid := o }
  scid : ∀ p o, R p { p with scid := o }
  chal : ∀ p d, R p (p.onChallenge d)
  resp : ∀ p d, D d → p.pending d = true → R p (p.onResponse d).2
  settled : ∀ p, R p { p with migrating := false }
  act : ∀ p b, R p { p with active := b }
  start : ∀ p, p.state ≠ .validated → R p p.startMigrating

/-- Nothing but connection IDs and paths changed, and the paths by `R`. -/
def Keeps (R : Path → Path → Prop) (c c' : Conn) : Prop :=
  (∃ ids m, c' = { c with ids := ids, paths := m }) ∧ Rel R c.paths c'.paths

variable {D : Nat → Prop} {c c' c'' : Conn}

theorem Keeps.refl (h : ∀ p, R p p) (c : Conn) : Keeps R c c := ⟨⟨c.ids, c.paths, rfl⟩, Rel.refl h _⟩

theorem Keeps.trans (h : ∀ p q r, R p q → R q r → R p r) (h1 : Keeps R c c') (h2 : Keeps R c' c'') : Keeps R c c'' := by
  obtain ⟨⟨i1, m1, rfl⟩, r1⟩ := h1
  obtain ⟨⟨i2, m2, rfl⟩, r2⟩ := h2
  exact ⟨⟨i2, m2, rfl⟩, r1.trans h r2⟩

theorem Keeps.mk {ids : Ids} (h : Rel R c.paths m) : Keeps R c { c with ids := ids, paths := m } := ⟨⟨ids, m, rfl⟩, h⟩

theorem Keeps.ids (h : ∀ p, R p p) (c : Conn) (ids : Ids) : Keeps R c { c with ids := ids } := Keeps.mk (Rel.refl h _)

theorem Keeps.upd (h : ∀ p, R p p) {ids : Ids} {pid : Nat} {f : Path → Path} (hf : ∀ p, c.paths.get pid = some p → R p (f p)) :
    Keeps R c { c with ids := ids, paths := c.paths.upd pid f } := Keeps.mk (Rel.upd h hf)

namespace Elem

theorem repath (hR : Elem R D) (c : Conn) (l : List (Nat × Nat)) : Keeps R c (c.repath l).2 := by
  induction l generalizing c with
  | nil => exact Keeps.refl hR.refl c
  | cons x l ih =>
    obtain ⟨seq, pid⟩ := x
    simp only [Conn.repath]
    split
    · exact Keeps.refl hR.refl c
    · split
      · exact ih c
      · split
        · rename_i n _
          have h1 : Keeps R c { c with paths := c.paths.upd pid fun p => { p with dcid := some n } } :=
            Keeps.upd (ids := c.ids) hR.refl fun p _ => hR.dcid p _
          split
          · exact h1.trans hR.trans (Keeps.ids hR.refl _ _)
          · exact (h1.trans hR.trans (Keeps.ids hR.refl _ _)).trans hR.trans (ih _)
        · exact (Keeps.upd (ids := c.ids) hR.refl fun p _ => hR.dcid p _).trans hR.trans (ih _)

theorem onNewCid (hR : Elem R D) (c : Conn) (cid : Bytes) (seq token rpt : Nat) : Keeps R c (c.onNewCid cid seq token rpt).2 := by
  unfold Conn.onNewCid
  split
  · exact Keeps.refl hR.refl c
  · dsimp only
    have h := (Keeps.ids hR.refl c (c.ids.newDcid cid seq token rpt).2.2).trans hR.trans
      (hR.repath _ (c.ids.newDcid cid seq token rpt).2.1)
    split
    · rename_i heq; rw [heq] at h; exact h
    · rename_i heq; rw [heq] at h; exact h

theorem onRetire (hR : Elem R D) (c : Conn) (seq : Nat) (cid : Bytes) : Keeps R c (c.onRetire seq cid).2 := by
  unfold Conn.onRetire
  split
  · exact Keeps.refl hR.refl c
  · split
    · exact Keeps.ids hR.refl _ _
    · exact Keeps.ids hR.refl _ _
    · rename_i pid ids _
      dsimp only
      split
      · exact Keeps.ids hR.refl _ _
      · split
        · exact Keeps.upd hR.refl fun p _ => hR.scid p _
        · exact Keeps.ids hR.refl _ _

theorem onResponse (hR : Elem R D) {m m' : PathMap} {d : Nat} (hd : D d) (h : m.onResponse d = .ok m') : Rel R m m' := by
  unfold PathMap.onResponse at h
  split at h
  · cases h
  · rename_i active _
    split at h
    · cases h; exact Rel.refl hR.refl _
    · rename_i pid hf
      obtain ⟨p', hp', hpend⟩ := PathMap.find_some hf
      split at h
      · cases h; exact Rel.refl hR.refl _
      · rename_i p hp
        rw [hp] at hp'
        have hp' := Option.some.inj hp'
        subst hp'
        have h1 : Rel R m (m.upd pid fun p => (p.onResponse d).2) :=
          Rel.upd hR.refl fun q hq => by rw [hp] at hq; cases hq; exact hR.resp p d hd hpend
        dsimp only at h
        cases h
        split
        · unfold PathMap.announce
          dsimp only
          have h2 := (h1.trans hR.trans (Rel.upd (pid := pid) hR.refl fun p _ => hR.settled p)).trans hR.trans
            (Rel.notify hR.refl _ (.validated (p.onResponse d).2.laddr (p.onResponse d).2.paddr))
          split
          · exact h2.trans hR.trans (Rel.notify hR.refl _ _)
          · exact h2
        · exact h1

theorem onFrame (hR : Elem R D) (c : Conn) (pid : Nat) (cid : Bytes) (f : Frame) (hf : ∀ d, f = .response d → D d) :
    Keeps R c (c.onFrame pid cid f).2 := by
  cases f with
  | newCid cid' seq token rpt => exact hR.onNewCid c cid' seq token rpt
  | retire seq => exact hR.onRetire c seq cid
  | challenge d =>
    simp only [Conn.onFrame]
    split
    · exact Keeps.refl hR.refl c
    · exact Keeps.upd (ids := c.ids) hR.refl fun p _ => hR.chal p d
  | response d =>
    simp only [Conn.onFrame]
    split
    · exact Keeps.refl hR.refl c
    · rename_i m hm
      exact Keeps.mk (ids := c.ids) (hR.onResponse (hf d rfl) hm)
  | padding => exact Keeps.refl hR.refl c
  | other => exact Keeps.refl hR.refl c

theorem onFrames (hR : Elem R D) (c : Conn) (pid : Nat) (cid : Bytes) (early : Bool) (fs : List Frame) (hf : early = false → ∀ d, .response d ∈ fs → D d) :
    Keeps R c (c.onFrames pid cid early fs).2 := by
  induction fs generalizing c with
  | nil => exact Keeps.refl hR.refl c
  | cons f fs ih =>
    simp only [Conn.onFrames]
    split
    · exact Keeps.refl hR.refl c
    · rename_i hn
      have h := hR.onFrame c pid cid f fun d hd => by
        cases early with
        | false => exact hf rfl d (by rw [hd]; exact List.mem_cons_self)
        | true => exact absurd ⟨rfl, by rw [hd]; rfl⟩ hn
      split
      · rename_i heq; rw [heq] at h; exact h
      · rename_i heq
        rw [heq] at h
        exact h.trans hR.trans (ih _ fun he d hd => hf he d (List.mem_cons_of_mem _ hd))

theorem allocate (hR : Elem R D) (c : Conn) (l : List Nat) : Keeps R c (c.allocate l).2 := by
  induction l generalizing c with
  | nil => exact Keeps.refl hR.refl c
  | cons pid l ih =>
    simp only [Conn.allocate]
    split
    · exact ih c
    · split
      · exact ih c
      · split
        · exact (Keeps.upd (ids := c.ids) hR.refl fun p _ => hR.dcid p _).trans hR.trans (ih _)
        · split
          · exact Keeps.refl hR.refl c
          · split
            · exact Keeps.ids hR.refl _ _
            · exact (Keeps.upd hR.refl fun p _ => hR.dcid p _).trans hR.trans (ih _)

theorem deactivate (hR : Elem R D) (m : PathMap) : Rel R m m.deactivate := by
  unfold PathMap.deactivate
  split
  · exact Rel.refl hR.refl m
  · exact Rel.upd hR.refl fun p _ => hR.act p _

theorem mapSetActive (hR : Elem R D) (m : PathMap) (pid : Nat) : Rel R m (m.setActive pid).2 := by
  unfold PathMap.setActive
  dsimp only
  have h := hR.deactivate m
  split
  · exact h
  · rename_i p hp
    split
    · split
      · exact (h.trans hR.trans (Rel.upd (pid := pid) hR.refl fun p _ => hR.act p true)).trans hR.trans (Rel.notify hR.refl _ _)
      · rename_i hv
        refine h.trans hR.trans (Rel.upd hR.refl fun q hq => ?_)
        rw [hp] at hq
        cases hq
        exact hR.start p hv
    · exact h.trans hR.trans (Rel.upd hR.refl fun p _ => hR.act p true)

theorem setActive (hR : Elem R D) (c : Conn) (pid : Nat) : Keeps R c (c.setActive pid).2 :=
  Keeps.mk (ids := c.ids) (hR.mapSetActive c.paths pid)

theorem reuseDcid (hR : Elem R D) (c : Conn) (old new : Nat) : Keeps R c (c.reuseDcid old new).2 := by
  unfold Conn.reuseDcid
  split
  · exact Keeps.refl hR.refl c
  · split
    · split
      · exact Keeps.refl hR.refl c
      · exact Keeps.upd (ids := c.ids) hR.refl fun p _ => hR.dcid p _
    · exact Keeps.refl hR.refl c

theorem migration (hR : Elem R D) (c : Conn) (pid : Nat) (newest : Bool) : Keeps R c (c.migration pid newest).2 := by
  unfold Conn.migration
  split
  · exact Keeps.refl hR.refl c
  · split
    · unfold Conn.onPeerMigrated
      split
      · exact Keeps.refl hR.refl c
      · split
        · exact Keeps.refl hR.refl c
        · have h := hR.setActive c pid
          split
          · rename_i heq; rw [heq] at h; exact h
          · rename_i heq
            rw [heq] at h
            exact h.trans hR.trans (hR.reuseDcid _ _ _)
    · exact Keeps.refl hR.refl c

theorem process (hR : Elem R D) (c : Conn) (pid : Nat) (cid : Bytes) (early : Bool) (fs : List Frame) (newest : Bool)
    (hf : early = false → ∀ d, .response d ∈ fs → D d) : Keeps R c (c.process pid cid early fs newest).2 := by
  unfold Conn.process
  have h1 := hR.onFrames c pid cid early fs hf
  split
  · rename_i heq; rw [heq] at h1; exact h1
  · rename_i c1 heq
    rw [heq] at h1
    have h2 := hR.allocate c1 (List.range c1.paths.slots.length)
    split
    · rename_i heq2; rw [heq2] at h2; exact h1.trans hR.trans h2
    · rename_i heq2
      rw [heq2] at h2
      have h3 := h1.trans hR.trans h2
      split
      · exact h3
      · exact h3.trans hR.trans (hR.migration _ _ _)

theorem recvLong (hR : Elem R D) (c : Conn) (hs early : Bool) (fs : List Frame) (newest : Bool)
    (hv : c.server = true → hs = true → ∀ p, R p { p with verified := true }) (hf : early = false → ∀ d, .response d ∈ fs → D d) : Keeps R c (c.recvLong hs early fs newest).2 := by
  unfold Conn.recvLong
  split
  · exact Keeps.refl hR.refl c
  · rename_i pid _
    have h1 := hR.process c pid [] early fs newest hf
    split
    · rename_i heq; rw [heq] at h1; exact h1
    · rename_i c1 heq
      rw [heq] at h1
      unfold Conn.verify
      split
      · rename_i hc
        have : c1.server = c.server := by obtain ⟨⟨i, m, h⟩, _⟩ := h1; have h := congrArg Conn.server h; exact h
        exact h1.trans hR.trans (Keeps.upd (ids := c1.ids) hR.refl fun p _ => hv (this ▸ hc.1) hc.2 p)
      · exact h1

theorem seenOn (hR : Elem R D) (c : Conn) (pid seq : Nat) (cid : Bytes) : Keeps R c (c.seenOn pid seq cid).2 := by
  unfold Conn.seenOn
  split
  · exact Keeps.refl hR.refl c
  · split
    · exact Keeps.refl hR.refl c
    · dsimp only
      split
      · exact Keeps.upd hR.refl fun p _ => hR.scid p _
      · exact Keeps.upd hR.refl fun p _ => hR.scid p _

end Elem

end Verif.Path
