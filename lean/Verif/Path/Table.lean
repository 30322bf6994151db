import Verif.Path.Rel

/-!
The table of paths stays consistent: no holes, one path for an address pair, found by it,
and no more paths than allowed.
-/

namespace Verif.Path
open Verif
open Verif.Cid (Ids Err)

variable {R : Path → Path → Prop} {m m' : PathMap}

structure Table (m : PathMap) : Prop where
  all : ∀ i, i < m.slots.length → ∃ p, m.get i = some p
  free : m.free = []
  addrs : ∀ a i, m.fromAddrs a = some i ↔ ∃ p, m.get i = some p ∧ (p.laddr, p.paddr) = a
  len : m.slots.length ≤ max 1 m.maxPaths

/-- The identity of a path does not change. -/
def SameId (p q : Path) : Prop := q.uid = p.uid ∧ q.laddr = p.laddr ∧ q.paddr = p.paddr

theorem Path.promote_frame (p : Path) (s : PState) : ∃ s', p.promote s = { p with state := s' } := by
  unfold Path.promote
  split
  · exact ⟨s, rfl⟩
  · exact ⟨p.state, rfl⟩

theorem SameId.promote (p : Path) (s : PState) : SameId p (p.promote s) := by
  obtain ⟨s', h⟩ := p.promote_frame s
  rw [h]; exact ⟨rfl, rfl, rfl⟩

theorem SameId.trans {p q r : Path} (h1 : SameId p q) (h2 : SameId q r) : SameId p r :=
  ⟨h2.1.trans h1.1, h2.2.1.trans h1.2.1, h2.2.2.trans h1.2.2⟩

theorem SameId.answer (p : Path) (d : Nat) : SameId p (p.answer d) := by
  unfold Path.answer
  dsimp only
  have := SameId.promote { p with verified := true, probingLost := 0, inFlight := p.inFlight.filter (·.data != d) } .validatingMtu
  exact ⟨this.1, this.2.1, this.2.2⟩

theorem SameId.onResponse (p : Path) (d : Nat) : SameId p (p.onResponse d).2 := by
  unfold Path.onResponse
  dsimp only
  have h := SameId.answer p d
  split
  · split
    · exact h.trans (SameId.promote _ _)
    · exact ⟨h.1, h.2.1, h.2.2⟩
  · exact h

theorem SameId.elem : Elem SameId (fun _ => True) where
  refl _ := ⟨rfl, rfl, rfl⟩
  trans _ _ _ h1 h2 := h1.trans h2
  dcid _ _ := ⟨rfl, rfl, rfl⟩
  scid _ _ := ⟨rfl, rfl, rfl⟩
  chal p d := by unfold Path.onChallenge; split <;> exact ⟨rfl, rfl, rfl⟩
  resp p d _ _ := SameId.onResponse p d
  settled _ := ⟨rfl, rfl, rfl⟩
  act _ _ := ⟨rfl, rfl, rfl⟩
  start p _ := by unfold Path.startMigrating Path.request; dsimp only; split <;> exact ⟨rfl, rfl, rfl⟩

theorem SameId.onTimeout (p : Path) (now rtt : Nat) (server : Bool) : SameId p (p.onTimeout now rtt server) := by
  unfold Path.onTimeout
  dsimp only
  split
  · exact ⟨rfl, rfl, rfl⟩
  · rename_i c _
    have h : SameId p (Path.countLost { p with inFlight := p.inFlight.filter fun c => !decide (c.time ≤ now) } c.time rtt) := by
      unfold Path.countLost
      split
      · split <;> exact ⟨rfl, rfl, rfl⟩
      · exact ⟨rfl, rfl, rfl⟩
    split
    · exact ⟨h.1, h.2.1, h.2.2⟩
    · exact ⟨h.1, h.2.1, h.2.2⟩

theorem SameId.addChallenge (p : Path) (c : Chal) : SameId p (p.addChallenge c) := by
  unfold Path.addChallenge
  dsimp only
  have := SameId.promote p .validating
  exact ⟨this.1, this.2.1, this.2.2⟩

theorem SameId.sent (p : Path) (o : Conn.Out) (now : Nat) : SameId p (Conn.sent p o now) := by
  unfold Conn.sent
  dsimp only
  have h1 : SameId p (if o.short = true then { p with received := p.received.drop o.responses } else p) := by
    split <;> exact ⟨rfl, rfl, rfl⟩
  generalize (if o.short = true then { p with received := p.received.drop o.responses } else p) = q at h1
  split
  · rename_i d _
    have h2 := h1.trans (SameId.addChallenge q { data := d, size := o.size, time := now })
    exact ⟨h2.1, h2.2.1, h2.2.2⟩
  · exact ⟨h1.1, h1.2.1, h1.2.2⟩

theorem Table.rel (hT : Table m) (h : Rel R m m') (hs : ∀ p q, R p q → SameId p q) : Table m' := by
  refine ⟨?_, by rw [h.free]; exact hT.free, ?_, by rw [h.len, h.maxPaths]; exact hT.len⟩
  · intro i hi
    rw [h.len] at hi
    obtain ⟨p, hp⟩ := hT.all i hi
    obtain ⟨q, hq, _⟩ := h.fwd i p hp
    exact ⟨q, hq⟩
  · intro a i
    have : m'.fromAddrs a = m.fromAddrs a := by unfold PathMap.fromAddrs; rw [h.addrs]
    rw [this, hT.addrs]
    constructor
    · rintro ⟨p, hp, ha⟩
      obtain ⟨q, hq, r⟩ := h.fwd i p hp
      have := hs _ _ r
      exact ⟨q, hq, by rw [this.2.1, this.2.2]; exact ha⟩
    · rintro ⟨q, hq, ha⟩
      obtain ⟨p, hp, r⟩ := h.bwd i q hq
      have := hs _ _ r
      exact ⟨p, hp, by rw [← this.2.1, ← this.2.2]; exact ha⟩

theorem len_of_all (hT : Table m) : m.len = m.slots.length := by
  unfold PathMap.len
  rw [List.filter_eq_self.mpr]
  intro s hs
  obtain ⟨i, hi, rfl⟩ := List.getElem_of_mem hs
  obtain ⟨p, hp⟩ := hT.all i hi
  unfold PathMap.get at hp
  rw [List.getElem?_eq_getElem hi] at hp
  have : m.slots[i] = some p := hp
  rw [this]; rfl

theorem fromAddrs_mapAddr (m : PathMap) (a b : Nat × Nat) (pid : Nat) :
    (m.mapAddr a pid).fromAddrs b = if a = b then some pid else m.fromAddrs b := by
  unfold PathMap.fromAddrs PathMap.mapAddr
  dsimp only
  rw [List.find?_cons]
  by_cases h : a = b
  · subst h; simp
  · rw [if_neg h]
    have : (a == b) = false := by simpa using h
    simp only [this]
    congr 1
    rw [List.find?_filter]
    congr 1
    funext x
    by_cases hx : x.1 = b
    · have : ¬ x.1 = a := fun h' => h (h'.symm.trans hx)
      have h1 : (x.1 != a) = true := by simpa using this
      have h2 : (x.1 == b) = true := by simpa using hx
      rw [h1, h2]; simp
    · have h2 : (x.1 == b) = false := by simpa using hx
      rw [h2]; simp

theorem fromAddrs_drop (m : PathMap) (pid : Nat) (p : Path) (a : Nat × Nat) :
    (m.drop pid p).fromAddrs a = if (p.laddr, p.paddr) = a then none else m.fromAddrs a := by
  unfold PathMap.fromAddrs PathMap.drop PathMap.notify
  dsimp only
  rw [List.find?_filter]
  by_cases h : (p.laddr, p.paddr) = a
  · subst h
    rw [if_pos rfl]
    rw [Option.map_eq_none_iff, List.find?_eq_none]
    intro x _
    by_cases hx : x.1 = (p.laddr, p.paddr) <;> simp [hx]
  · rw [if_neg h]
    congr 2
    funext x
    by_cases hx : x.1 = a
    · have : ¬ x.1 = (p.laddr, p.paddr) := fun h' => h (h'.symm.trans hx)
      have h1 : (x.1 != (p.laddr, p.paddr)) = true := by simpa using this
      have h2 : (x.1 == a) = true := by simpa using hx
      rw [h1, h2]; simp
    · have h2 : (x.1 == a) = false := by simpa using hx
      rw [h2]; simp

/-- What `insert_path` does with a path for new addresses: it takes a new slot or that of
an unused path, and the others stay. -/
structure Inserted (m : PathMap) (p : Path) (pid : Nat) (m' : PathMap) : Prop where
  table : Table m'
  self : m'.get pid = some p
  other : ∀ i, i ≠ pid → m'.get i = m.get i
  place : (pid = m.slots.length ∧ m'.slots.length = m.slots.length + 1) ∨
    (∃ old, m.get pid = some old ∧ old.unused = true) ∧ m'.slots.length = m.slots.length
  maxPaths : m'.maxPaths = m.maxPaths
  server : m'.server = m.server

theorem Inserted.notify {p : Path} {pid : Nat} (h : Inserted m p pid m') (e : Event) : Inserted m p pid (m'.notify e) :=
  ⟨⟨h.table.all, h.table.free, h.table.addrs, h.table.len⟩, h.self, h.other, h.place, h.maxPaths, h.server⟩

theorem get_append (m : PathMap) (s : Option Path) (i : Nat) :
    PathMap.get { m with slots := m.slots ++ [s] } i = if i = m.slots.length then s else m.get i := by
  unfold PathMap.get
  dsimp only
  by_cases h : i = m.slots.length
  · rw [if_pos h, h]; simp
  · rw [if_neg h]
    by_cases h2 : i < m.slots.length
    · rw [List.getElem?_append_left h2]
    · rw [List.getElem?_eq_none (by simp; omega), List.getElem?_eq_none (by omega)]

theorem get_set (m : PathMap) (s : Option Path) (k i : Nat) (hk : k < m.slots.length) :
    (PathMap.get { m with slots := m.slots.set k s } i) = if i = k then s else m.get i := by
  unfold PathMap.get
  dsimp only
  rw [List.getElem?_set]
  by_cases h : k = i
  · subst h; simp [hk]
  · simp [h, Ne.symm h, Eq.comm]

theorem insertPath_spec (hT : Table m) {p : Path} {b : Bool} {pid : Nat} (hnew : m.fromAddrs (p.laddr, p.paddr) = none)
    (h : m.insertPath p b = some (pid, m')) : Inserted m p pid m' := by
  unfold PathMap.insertPath at h
  split at h
  · cases h
  rename_i m1 hroom
  have key : Inserted m p (m1.slabInsert p).1 ((m1.slabInsert p).2.mapAddr (p.laddr, p.paddr) (m1.slabInsert p).1) := by
    unfold PathMap.makeRoom at hroom
    rw [len_of_all hT] at hroom
    split at hroom
    · rename_i hlt
      cases hroom
      have hs : m.slabInsert p = (m.slots.length, { m with slots := m.slots ++ [some p] }) := by
        unfold PathMap.slabInsert; rw [hT.free]
      rw [hs]
      dsimp only
      have hget : ∀ i, PathMap.get ({ m with slots := m.slots ++ [some p] }.mapAddr (p.laddr, p.paddr) m.slots.length) i =
          if i = m.slots.length then some p else m.get i := fun i => get_append m (some p) i
      refine ⟨⟨?_, hT.free, ?_, ?_⟩, ?_, ?_, Or.inl ⟨rfl, by simp [PathMap.mapAddr]⟩, rfl, rfl⟩
      · intro i hi
        rw [hget]
        split
        · exact ⟨p, rfl⟩
        · have hl : (PathMap.mapAddr { m with slots := m.slots ++ [some p] } (p.laddr, p.paddr) m.slots.length).slots.length =
              m.slots.length + 1 := by simp [PathMap.mapAddr]
          rw [hl] at hi
          exact hT.all i (by omega)
      · intro a i
        rw [fromAddrs_mapAddr, hget]
        by_cases ha : (p.laddr, p.paddr) = a
        · rw [if_pos ha]
          constructor
          · intro h; cases h; exact ⟨p, by rw [if_pos rfl], ha⟩
          · rintro ⟨q, hq, hqa⟩
            split at hq
            · rename_i hi; rw [hi]
            · have := (hT.addrs a i).mpr ⟨q, hq, hqa⟩
              rw [← ha, hnew] at this; cases this
        · rw [if_neg ha]
          show m.fromAddrs a = some i ↔ _
          rw [hT.addrs]
          constructor
          · rintro ⟨q, hq, hqa⟩
            exact ⟨q, by rw [if_neg (Nat.ne_of_lt (PathMap.get_lt hq))]; exact hq, hqa⟩
          · rintro ⟨q, hq, hqa⟩
            split at hq
            · cases hq; exact absurd hqa ha
            · exact ⟨q, hq, hqa⟩
      · show (m.slots ++ [some p]).length ≤ max 1 m.maxPaths
        simp only [List.length_append, List.length_singleton]
        omega
      · rw [hget, if_pos rfl]
      · intro i hi; rw [hget, if_neg hi]
    · split at hroom
      · cases hroom
      · rename_i k hk
        obtain ⟨old, hold, hun⟩ := PathMap.find_some hk
        have hkl := PathMap.get_lt hold
        rw [hold] at hroom
        dsimp only at hroom
        cases hroom
        have hs : (m.drop k old).slabInsert p =
            (k, { m.drop k old with slots := m.slots.set k (some p), free := [] }) := by
          unfold PathMap.slabInsert PathMap.drop PathMap.notify
          dsimp only
          rw [hT.free, List.set_set]
        rw [hs]
        dsimp only
        have hget : ∀ i, PathMap.get (PathMap.mapAddr { m.drop k old with slots := m.slots.set k (some p), free := [] } (p.laddr, p.paddr) k) i =
            if i = k then some p else m.get i := fun i => get_set m (some p) k i hkl
        have hlen : (PathMap.mapAddr { m.drop k old with slots := m.slots.set k (some p), free := [] } (p.laddr, p.paddr) k).slots.length =
            m.slots.length := by simp [PathMap.mapAddr]
        have haddr : ∀ a, PathMap.fromAddrs (PathMap.mapAddr { m.drop k old with slots := m.slots.set k (some p), free := [] } (p.laddr, p.paddr) k) a =
            if (p.laddr, p.paddr) = a then some k else if (old.laddr, old.paddr) = a then none else m.fromAddrs a := by
          intro a
          rw [fromAddrs_mapAddr]
          split
          · rfl
          · exact fromAddrs_drop m k old a
        refine ⟨⟨?_, rfl, ?_, by rw [hlen]; exact hT.len⟩, ?_, ?_, Or.inr ⟨⟨old, hold, hun⟩, hlen⟩, rfl, rfl⟩
        · intro i hi
          rw [hget]
          split
          · exact ⟨p, rfl⟩
          · rw [hlen] at hi; exact hT.all i hi
        · intro a i
          rw [haddr, hget]
          by_cases ha : (p.laddr, p.paddr) = a
          · rw [if_pos ha]
            constructor
            · intro h; cases h; exact ⟨p, by rw [if_pos rfl], ha⟩
            · rintro ⟨q, hq, hqa⟩
              split at hq
              · rename_i hi; rw [hi]
              · have := (hT.addrs a i).mpr ⟨q, hq, hqa⟩
                rw [← ha, hnew] at this; cases this
          · rw [if_neg ha]
            by_cases ho : (old.laddr, old.paddr) = a
            · rw [if_pos ho]
              constructor
              · intro h; cases h
              · rintro ⟨q, hq, hqa⟩
                split at hq
                · cases hq; exact absurd hqa ha
                · rename_i hi
                  have h1 := (hT.addrs a i).mpr ⟨q, hq, hqa⟩
                  have h2 := (hT.addrs a k).mpr ⟨old, hold, ho⟩
                  rw [h1] at h2; cases h2; exact absurd rfl hi
            · rw [if_neg ho, hT.addrs]
              constructor
              · rintro ⟨q, hq, hqa⟩
                have : i ≠ k := by
                  intro hi; subst hi; rw [hold] at hq; cases hq; exact ho hqa
                exact ⟨q, by rw [if_neg this]; exact hq, hqa⟩
              · rintro ⟨q, hq, hqa⟩
                split at hq
                · cases hq; exact absurd hqa ha
                · exact ⟨q, hq, hqa⟩
        · rw [hget, if_pos rfl]
        · intro i hi; rw [hget, if_neg hi]
  dsimp only at h
  cases b with
  | false =>
    simp only [Bool.false_eq_true, if_false] at h
    cases h
    exact key
  | true =>
    simp only [if_true] at h
    cases h
    exact key.notify _

/-- With a path for an address, others cannot be inserted twice: `insert_path` fails only
when there is neither room nor an unused path. -/
theorem insertPath_none {p : Path} {b : Bool} (h : m.insertPath p b = none) :
    m.maxPaths ≤ m.len ∧ ∀ i q, m.get i = some q → q.unused = false := by
  unfold PathMap.insertPath at h
  split at h
  · rename_i hroom
    unfold PathMap.makeRoom at hroom
    split at hroom
    · cases hroom
    · rename_i hl
      split at hroom
      · rename_i hf
        exact ⟨by omega, fun i q hq => PathMap.find_none hf hq⟩
      · rename_i k hk
        obtain ⟨old, hold, _⟩ := PathMap.find_some hk
        rw [hold] at hroom
        cases hroom
  · cases h

end Verif.Path
