import Verif.Ack.Model

/-!
Ranges of packet numbers are never empty, so that `RangeSet::last` is the largest number.
-/

namespace Verif.Ack
open Verif Verif.Ranges

/-- No range is empty. -/
def Full (l : List Rng) : Prop := ∀ r ∈ l, r.1 < r.2

theorem full_sub {k l : List Rng} (h : Full l) (hs : ∀ r ∈ k, r ∈ l) : Full k :=
  fun r hr => h r (hs r hr)

theorem full_mapInsert {m : List Rng} {s e : Nat} (hm : Full m) (hse : s < e) : Full (mapInsert s e m) := by
  induction m with
  | nil => intro r hr; simp only [mapInsert, List.mem_singleton] at hr; subst hr; exact hse
  | cons a t ih =>
    obtain ⟨k, v⟩ := a
    have ht : Full t := fun r hr => hm r (List.mem_cons_of_mem _ hr)
    have ha := hm (k, v) (List.mem_cons_self ..)
    simp only [mapInsert]
    split
    · intro r hr
      rcases List.mem_cons.mp hr with rfl | hr
      · exact hse
      · exact hm r hr
    split
    · intro r hr
      rcases List.mem_cons.mp hr with rfl | hr
      · exact hse
      · exact ht r hr
    · intro r hr
      rcases List.mem_cons.mp hr with rfl | hr
      · exact ha
      · exact ih ht r hr

theorem full_mapRemove {m : List Rng} (hm : Full m) (k : Nat) : Full (mapRemove m k) :=
  full_sub hm fun _ hr => (List.mem_filter.mp hr).1

theorem full_loop (item : Rng) (fuel : Nat) : ∀ (m : List Rng) (s e : Nat), Full m → s < e →
    Full (btreeLoop item fuel m s e).1 ∧
      (btreeLoop item fuel m s e).2.1 < (btreeLoop item fuel m s e).2.2 := by
  induction fuel with
  | zero => intro m s e hm hse; exact ⟨hm, hse⟩
  | succ n ih =>
    intro m s e hm hse
    simp only [btreeLoop]
    split
    · exact ⟨hm, hse⟩
    split
    · exact ih _ _ _ (full_mapRemove hm _) hse
    split
    · exact ⟨hm, hse⟩
    · exact ih _ _ _ (full_mapRemove hm _) (by omega)

theorem full_btreeInsert {cap : Nat} {m : List Rng} {s e : Nat} (hm : Full m) (hse : s < e) :
    Full (btreeInsert cap m (s, e)) := by
  have key : Full (btreeAbsorb m (s, e)).1 ∧ (btreeAbsorb m (s, e)).2.1 < (btreeAbsorb m (s, e)).2.2 := by
    unfold btreeAbsorb
    dsimp only
    split
    · split
      · exact full_loop _ _ _ _ _ (full_mapRemove hm _) (by omega)
      · exact full_loop _ _ _ _ _ hm hse
    · exact full_loop _ _ _ _ _ hm hse
  unfold btreeInsert
  generalize btreeAbsorb m (s, e) = a at key
  obtain ⟨m', s', e'⟩ := a
  dsimp only at key ⊢
  refine full_mapInsert ?_ key.2
  split
  · exact full_sub key.1 fun _ hr => List.mem_of_mem_tail hr
  · exact key.1

theorem full_btreeRemove {cap : Nat} {m : List Rng} (hm : Full m) (k : Nat) : Full (btreeRemoveUntil cap m k) := by
  unfold btreeRemoveUntil
  generalize m.filter (fun r => r.1 ≤ k) = l
  induction l generalizing m with
  | nil => exact hm
  | cons r t ih =>
    simp only [List.foldl_cons]
    apply ih
    split
    · exact full_btreeInsert (full_mapRemove hm _) (by omega)
    · exact full_mapRemove hm _

theorem full_merge {l : List Rng} (hl : Full l) (s e : Nat) (hse : s < e) :
    Full ((s, (mergeEnd e l).1) :: (mergeEnd e l).2) := by
  intro r hr
  rcases List.mem_cons.mp hr with rfl | hr
  · have := mergeEnd_le e l; simp only; omega
  · exact hl r ((mergeEnd_sub e l).subset hr)

theorem full_ins {l : List Rng} (hl : Full l) {s e : Nat} (hse : s < e) : Full (ins s e l) := by
  induction l with
  | nil => intro r hr; simp only [ins, List.mem_singleton] at hr; subst hr; exact hse
  | cons a t ih =>
    obtain ⟨a, b⟩ := a
    have ht : Full t := fun r hr => hl r (List.mem_cons_of_mem _ hr)
    have ha := hl (a, b) (List.mem_cons_self ..)
    simp only at ha
    simp only [ins]
    split
    · intro r hr
      rcases List.mem_cons.mp hr with rfl | hr
      · exact ha
      · exact ih ht r hr
    split
    · intro r hr
      rcases List.mem_cons.mp hr with rfl | hr
      · exact hse
      · exact hl r hr
    · exact full_merge ht _ _ (by omega)

theorem full_insert {st st' : RangeSet} (hinv : Inv st) (hf : Full st.ranges) {s e : Nat} (hse : s < e)
    (hi : st.insert (s, e) = some st') : Full st'.ranges := by
  cases st with
  | inline l c =>
    simp only [RangeSet.insert, Option.map_eq_some_iff] at hi
    obtain ⟨l', hl', rfl⟩ := hi
    simp only [fixup_ranges, ranges_inline] at *
    rcases inlineInsert_some (pre := []) (show Norm ([] ++ l) from hinv.1) hl' with ⟨h, -⟩ | ⟨-, x, t, -, h, -⟩
    · rw [h]; exact full_ins hf hse
    · simp only [List.nil_append] at h
      exact full_sub (full_ins hf hse) fun r hr => h ▸ List.mem_cons_of_mem _ hr
  | btree m c =>
    simp only [RangeSet.insert, Option.some.injEq] at hi
    subst hi
    simp only [fixup_ranges, ranges_btree] at *
    exact full_btreeInsert hf hse

theorem full_remove {st : RangeSet} (hf : Full st.ranges) (k : Nat) : Full (st.removeUntil k).ranges := by
  cases st with
  | inline l c =>
    simp only [RangeSet.removeUntil, fixup_ranges, ranges_inline] at *
    induction l with
    | nil => exact hf
    | cons a t ih =>
      obtain ⟨a, b⟩ := a
      have ht : Full t := fun r hr => hf r (List.mem_cons_of_mem _ hr)
      simp only [inlineRemoveUntil]
      split
      · exact ih ht
      split
      · exact ht
      · intro r hr
        have ha := hf (a, b) (List.mem_cons_self ..)
        simp only at ha
        rcases List.mem_cons.mp hr with rfl | hr
        · simp only; omega
        · exact ht r hr
  | btree m c =>
    simp only [RangeSet.removeUntil, fixup_ranges, ranges_btree] at *
    exact full_btreeRemove hf k

/-- The largest number of a list of ranges. -/
def IsMax (n : Nat) (l : List Rng) : Prop := Mem n l ∧ ∀ m, Mem m l → m ≤ n

theorem max_unique {n m : Nat} {l : List Rng} (hn : IsMax n l) (hm : IsMax m l) : n = m :=
  Nat.le_antisymm (hm.2 n hn.1) (hn.2 m hm.1)

theorem last_spec {st : RangeSet} (hn : Norm st.ranges) (hf : Full st.ranges) :
    (st.ranges = [] ∧ st.last = some none) ∨ ∃ n, st.last = some (some n) ∧ IsMax n st.ranges := by
  unfold RangeSet.last
  cases hl : st.ranges.getLast? with
  | none => exact .inl ⟨List.getLast?_eq_none_iff.mp hl, rfl⟩
  | some r =>
    right
    obtain ⟨k, hk⟩ := List.getLast?_eq_some_iff.mp hl
    have hr : r ∈ st.ranges := by rw [hk]; simp
    have hr' := hf r hr
    refine ⟨r.2 - 1, by simp only; rw [if_neg (by omega)], ⟨r, hr, by omega, by omega⟩, ?_⟩
    rintro m ⟨x, hx, h1, h2⟩
    rw [hk] at hx hn
    rcases List.mem_append.mp hx with hx | hx
    · have := (norm_append.mp hn).2.2 x hx r (by simp)
      omega
    · simp only [List.mem_singleton] at hx; subst hx; omega

theorem mem_nonempty {l : List Rng} {n : Nat} (h : Mem n l) : l ≠ [] := by
  rintro rfl; exact mem_nil n h

theorem full_mem {l : List Rng} (hf : Full l) (h : l ≠ []) : ∃ n, Mem n l := by
  cases l with
  | nil => exact absurd rfl h
  | cons r t =>
    have := hf r (List.mem_cons_self ..)
    exact ⟨r.1, r, List.mem_cons_self .., by omega, by omega⟩

/-- The set of numbers to acknowledge. -/
structure Good (st : RangeSet) : Prop where
  inv : Inv st
  cap : st.capacity = maxAckRanges
  full : Full st.ranges

theorem good_new : Good (.new maxAckRanges) :=
  ⟨inv_new _, rfl, fun r hr => absurd hr (by simp [RangeSet.new, RangeSet.ranges])⟩

theorem good_remove {st : RangeSet} (h : Good st) (k : Nat) : Good (st.removeUntil k) :=
  have := removeUntil_spec h.inv k
  ⟨this.1, this.2.1.trans h.cap, full_remove h.full k⟩

/-- What there is to know about the insertion of one number. -/
theorem good_push {st : RangeSet} (h : Good st) (n : Nat) :
    ∃ st', st.pushItem n = some st' ∧ Good st' ∧ Mem n st'.ranges ∧
      (∀ m, Mem m st'.ranges → Mem m st.ranges ∨ m = n) ∧
      (st.ranges.length < maxAckRanges → ∀ m, Mem m st.ranges → Mem m st'.ranges) ∧
      (∀ m, IsMax m st.ranges → n ≤ m → Mem m st'.ranges) := by
  obtain ⟨st', hst⟩ := insert_isSome (st := st) (item := (n, n + 1)) (.inr ⟨by rw [h.cap]; decide, h.inv.2.2⟩)
  obtain ⟨s1, s2, s3⟩ := insert_spec h.inv (Nat.le_succ n) hst
  refine ⟨st', hst, ⟨s1, s2.trans h.cap, full_insert h.inv h.full (Nat.lt_succ_self n) hst⟩, ?_⟩
  have him := fun m => ins_mem (Nat.le_succ n) h.inv.1 m
  rcases s3 with s3 | ⟨e1, e2, e3, x, t, e4, e5⟩
  · rw [s3]
    refine ⟨(him n).mpr (.inl ⟨by omega, by omega⟩), fun m hm => ?_, fun _ m hm => (him m).mpr (.inr hm),
      fun m hm _ => (him m).mpr (.inr hm.1)⟩
    rcases (him m).mp hm with h | h
    · exact .inr (by omega)
    · exact .inl h
  · refine ⟨?_, fun m hm => ?_, fun hlt => ?_, fun m hm _ => ?_⟩
    · refine (e5 n).mpr ⟨.inr ⟨by omega, by omega⟩, fun hx => e3 x (by rw [e4]; simp) ?_⟩
      unfold Touch; simp only; omega
    · rcases ((e5 m).mp hm).1 with h | h
      · exact .inl h
      · exact .inr (by omega)
    · rw [h.cap] at e1; omega
    · refine (e5 m).mpr ⟨.inl hm.1, fun hx => ?_⟩
      cases t with
      | nil => rw [e4, h.cap] at e1; simp [maxAckRanges] at e1
      | cons y t =>
        have hy := h.full y (by rw [e4]; simp)
        have := hm.2 y.1 ⟨y, by rw [e4]; simp, by omega, by omega⟩
        have hn := h.inv.1
        rw [e4, norm_cons] at hn
        have := hn.2.1 y (by simp)
        omega

end Verif.Ack
