import Verif.Bbr.Sampler

/-!
Facts about the map of packets of the sampler.
-/

namespace Verif.Bbr

/-- The packets still there. -/
def PMap.live (m : PMap) : List (Nat × Entry) := m.filterMap fun p => p.2.map fun e => (p.1, e)

/-- Sorted by packet number without repetition. -/
def PMap.Sorted (m : PMap) : Prop := (m.map Prod.fst).Pairwise (· < ·)

/-- The packet of a number, if it is there. -/
def findPk (l : List (Nat × Entry)) (pn : Nat) : Option Entry := (l.find? fun p => p.1 == pn).map Prod.snd

theorem live_nil : PMap.live [] = [] := rfl

theorem live_none (n : Nat) (m : PMap) : PMap.live ((n, none) :: m) = PMap.live m := by
  simp [PMap.live]

theorem live_some (n : Nat) (e : Entry) (m : PMap) : PMap.live ((n, some e) :: m) = (n, e) :: PMap.live m := by
  simp [PMap.live]

theorem live_append (m m' : PMap) : PMap.live (m ++ m') = PMap.live m ++ PMap.live m' := by
  simp [PMap.live]

theorem live_mem {m : PMap} {n : Nat} {e : Entry} : (n, e) ∈ m.live ↔ (n, some e) ∈ m := by
  unfold PMap.live
  rw [List.mem_filterMap]
  constructor
  · rintro ⟨⟨n', o⟩, h1, h2⟩
    cases o with
    | none => simp at h2
    | some e' =>
      simp only [Option.map_some, Option.some.injEq, Prod.mk.injEq] at h2
      rw [← h2.1, ← h2.2]; exact h1
  · intro h
    exact ⟨(n, some e), h, rfl⟩

theorem sorted_cons {p : Nat × Option Entry} {m : PMap} : PMap.Sorted (p :: m) ↔ (∀ q ∈ m, p.1 < q.1) ∧ PMap.Sorted m := by
  unfold PMap.Sorted
  rw [List.map_cons, List.pairwise_cons]
  constructor
  · rintro ⟨h1, h2⟩
    exact ⟨fun q hq => h1 _ (List.mem_map_of_mem hq), h2⟩
  · rintro ⟨h1, h2⟩
    refine ⟨?_, h2⟩
    intro a ha
    obtain ⟨q, hq, rfl⟩ := List.mem_map.1 ha
    exact h1 q hq

theorem takeAt_keys (pn : Nat) : ∀ m : PMap, (PMap.takeAt m pn).2.map Prod.fst = m.map Prod.fst
  | [] => rfl
  | (n, v) :: m => by
    unfold PMap.takeAt
    split
    · rfl
    · simp only [List.map_cons]
      rw [takeAt_keys pn m]

theorem filter_id {l : List (Nat × Entry)} {pn : Nat} (h : ∀ q ∈ l, q.1 ≠ pn) : l.filter (fun p => !(p.1 == pn)) = l := by
  rw [List.filter_eq_self]
  intro q hq
  simpa using h q hq

theorem takeAt_spec (pn : Nat) : ∀ m : PMap, m.Sorted →
    (PMap.takeAt m pn).1 = findPk m.live pn ∧ (PMap.takeAt m pn).2.live = m.live.filter (fun p => !(p.1 == pn))
  | [], _ => ⟨rfl, rfl⟩
  | (n, v) :: m, h => by
    obtain ⟨h1, h2⟩ := sorted_cons.1 h
    obtain ⟨i1, i2⟩ := takeAt_spec pn m h2
    unfold PMap.takeAt
    by_cases hn : n = pn
    · rw [if_pos hn]
      dsimp only
      have hne : ∀ q ∈ PMap.live m, q.1 ≠ pn := by
        rintro ⟨k, e⟩ hq
        have := h1 _ (live_mem.1 hq)
        dsimp only at this ⊢
        omega
      cases v with
      | none =>
        rw [live_none, filter_id hne]
        refine ⟨?_, rfl⟩
        unfold findPk
        rw [show (PMap.live m).find? (fun p => p.1 == pn) = none from List.find?_eq_none.2 (fun q hq => by simpa using hne q hq)]
        rfl
      | some e =>
        rw [live_some, live_none, List.filter_cons, if_neg (by simp [hn]), filter_id hne]
        refine ⟨?_, rfl⟩
        unfold findPk
        rw [List.find?_cons_of_pos (by simp [hn])]
        rfl
    · rw [if_neg hn]
      dsimp only
      cases v with
      | none => rw [live_none, live_none]; exact ⟨i1, i2⟩
      | some e =>
        rw [live_some, live_some, List.filter_cons, if_pos (by simp [hn]), i2]
        refine ⟨?_, rfl⟩
        rw [i1]
        unfold findPk
        rw [List.find?_cons_of_neg (by simp [hn])]

theorem trim_live : ∀ m : PMap, m.trim.live = m.live
  | [] => rfl
  | (n, none) :: m => by rw [PMap.trim, live_none, trim_live m]
  | (n, some v) :: m => by rw [PMap.trim]


theorem trim_sub : ∀ m : PMap, (m.trim.map Prod.fst).Sublist (m.map Prod.fst)
  | [] => List.Sublist.refl _
  | (n, none) :: m => by rw [PMap.trim, List.map_cons]; exact (trim_sub m).cons _
  | (n, some v) :: m => by rw [PMap.trim]; exact List.Sublist.refl _

theorem drop_sub (least : Nat) : ∀ m : PMap, ((m.drop least).map Prod.fst).Sublist (m.map Prod.fst)
  | [] => List.Sublist.refl _
  | (n, v) :: m => by
    unfold PMap.drop
    split
    · rw [List.map_cons]; exact (drop_sub least m).cons _
    · exact List.Sublist.refl _

/-- Taking a packet gives it if it is there, removes it, and leaves the others. -/
theorem take_spec (pn : Nat) (m : PMap) (h : m.Sorted) :
    (m.take pn).1 = findPk m.live pn ∧ (m.take pn).2.live = m.live.filter (fun p => !(p.1 == pn)) ∧
      ((m.take pn).2.map Prod.fst).Sublist (m.map Prod.fst) := by
  cases m with
  | nil => exact ⟨rfl, rfl, List.Sublist.refl _⟩
  | cons p m =>
    obtain ⟨n, v⟩ := p
    unfold PMap.take
    dsimp only
    obtain ⟨t1, t2⟩ := takeAt_spec pn ((n, v) :: m) h
    by_cases hn : n = pn
    · rw [if_pos hn]
      dsimp only
      unfold PMap.takeAt at t1 t2
      rw [if_pos hn] at t1 t2
      rw [live_none] at t2
      exact ⟨t1, t2, by rw [List.map_cons]; exact (List.Sublist.refl _).cons _⟩
    · rw [if_neg hn]
      dsimp only
      refine ⟨t1, by rw [trim_live, t2], ?_⟩
      rw [← takeAt_keys pn ((n, v) :: m)]
      exact trim_sub _

theorem Sorted.sub {m m' : PMap} (h : m.Sorted) (hs : (m'.map Prod.fst).Sublist (m.map Prod.fst)) : m'.Sorted :=
  List.Pairwise.sublist hs h

theorem drop_live (least : Nat) : ∀ m : PMap, m.Sorted → (m.drop least).live = m.live.filter (fun p => !decide (p.1 < least))
  | [], _ => rfl
  | (n, v) :: m, h => by
    obtain ⟨h1, h2⟩ := sorted_cons.1 h
    have ih := drop_live least m h2
    unfold PMap.drop
    by_cases hn : n < least
    · rw [if_pos hn, ih]
      cases v with
      | none => rw [live_none]
      | some e => rw [live_some, List.filter_cons, if_neg (by simp [hn])]
    · rw [if_neg hn]
      have hall : (PMap.live m).filter (fun p => !decide (p.1 < least)) = (PMap.live m) := by
        rw [List.filter_eq_self]
        rintro ⟨k, e⟩ hq
        have := h1 _ (live_mem.1 hq)
        dsimp only at this
        simp only [Bool.not_eq_eq_eq_not, Bool.not_true, decide_eq_false_iff_not]
        omega
      cases v with
      | none => rw [live_none, hall]
      | some e => rw [live_some, List.filter_cons, if_pos (by simp [hn]), hall]

theorem findPk_mem {l : List (Nat × Entry)} {pn : Nat} {e : Entry} (h : findPk l pn = some e) : (pn, e) ∈ l := by
  unfold findPk at h
  cases hf : l.find? (fun p => p.1 == pn) with
  | none => rw [hf] at h; cases h
  | some q =>
    rw [hf] at h
    simp only [Option.map_some, Option.some.injEq] at h
    have h1 := List.mem_of_find?_eq_some hf
    have h2 := List.find?_some hf
    simp only [beq_iff_eq] at h2
    rw [← h, ← h2]; exact h1

/-- A number larger than all others may be inserted. -/
theorem fits_of {m : PMap} {pn : Nat} (h : ∀ p ∈ m, p.1 < pn) : m.fits pn = true := by
  unfold PMap.fits
  cases hl : m.getLast? with
  | none => rfl
  | some p =>
    have := h p (List.mem_of_getLast? hl)
    simpa using this

theorem sorted_snoc {m : PMap} {pn : Nat} {v : Option Entry} (hs : m.Sorted) (h : ∀ p ∈ m, p.1 < pn) : PMap.Sorted (m ++ [(pn, v)]) := by
  unfold PMap.Sorted at *
  rw [List.map_append, List.pairwise_append]
  refine ⟨hs, by simp, ?_⟩
  intro a ha b hb
  obtain ⟨q, hq, rfl⟩ := List.mem_map.1 ha
  simp only [List.map_cons, List.map_nil, List.mem_singleton] at hb
  rw [hb]; exact h q hq

theorem keys_lt {m m' : PMap} {n : Nat} (hs : (m'.map Prod.fst).Sublist (m.map Prod.fst)) (h : ∀ p ∈ m, p.1 < n) : ∀ p ∈ m', p.1 < n := by
  intro p hp
  have := hs.subset (List.mem_map_of_mem hp)
  obtain ⟨q, hq, he⟩ := List.mem_map.1 this
  rw [← he]; exact h q hq

end Verif.Bbr
