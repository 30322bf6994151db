import Verif.Cid.Model

/-! Facts about the two bounded collections and about each operation. -/

namespace Verif.Cid
open Verif

abbrev keys (l : List Entry) : List Nat := l.map (·.seq)

/-! ### lists of entries -/

theorem find_seq_none {l : List Entry} {n : Nat} : l.find? (·.seq == n) = none ↔ n ∉ keys l := by
  simp [List.find?_eq_none, keys]

theorem find_seq_some {l : List Entry} {n : Nat} {e : Entry} (h : l.find? (·.seq == n) = some e) : e ∈ l ∧ e.seq = n := by
  have h1 := List.mem_of_find?_eq_some h
  have h2 := List.find?_some h
  simp at h2
  exact ⟨h1, h2⟩

theorem eq_of_seq {l : List Entry} (hn : (keys l).Nodup) {a b : Entry} (ha : a ∈ l) (hb : b ∈ l) (h : a.seq = b.seq) : a = b := by
  induction l with
  | nil => cases ha
  | cons x l ih =>
    simp only [keys, List.map_cons, List.nodup_cons] at hn
    rcases List.mem_cons.mp ha with ha | ha <;> rcases List.mem_cons.mp hb with hb | hb
    · rw [ha, hb]
    · exact absurd (List.mem_map.mpr ⟨b, hb, by rw [← h, ha]⟩) hn.1
    · exact absurd (List.mem_map.mpr ⟨a, ha, by rw [h, hb]⟩) hn.1
    · exact ih hn.2 ha hb

theorem find_seq_of_mem {l : List Entry} (hn : (keys l).Nodup) {e : Entry} (he : e ∈ l) : l.find? (·.seq == e.seq) = some e := by
  cases h : l.find? (·.seq == e.seq) with
  | none => exact absurd (List.mem_map.mpr ⟨e, he, rfl⟩) (find_seq_none.mp h)
  | some x =>
    have := find_seq_some h
    rw [eq_of_seq hn this.1 he this.2]

theorem del_sublist (l : List Entry) (n : Nat) : (Deque.del l n).Sublist l := by
  induction l with
  | nil => exact List.Sublist.slnil
  | cons x l ih =>
    unfold Deque.del
    split
    · exact List.sublist_cons_self x l
    · exact ih.cons₂ x

theorem mem_del {l : List Entry} (hn : (keys l).Nodup) {n : Nat} {e : Entry} : e ∈ Deque.del l n ↔ e ∈ l ∧ e.seq ≠ n := by
  induction l with
  | nil => simp [Deque.del]
  | cons x l ih =>
    simp only [keys, List.map_cons, List.nodup_cons] at hn
    unfold Deque.del
    split
    · rename_i h
      constructor
      · intro he
        exact ⟨List.mem_cons_of_mem _ he, fun hs => hn.1 (List.mem_map.mpr ⟨e, he, by rw [hs, h]⟩)⟩
      · intro ⟨he, hs⟩
        rcases List.mem_cons.mp he with he | he
        · exact absurd (by rw [he, h]) hs
        · exact he
    · rename_i h
      rw [List.mem_cons, List.mem_cons, ih hn.2]
      constructor
      · rintro (he | ⟨he, hs⟩)
        · exact ⟨Or.inl he, by rw [he]; exact h⟩
        · exact ⟨Or.inr he, hs⟩
      · rintro ⟨he | he, hs⟩
        · exact Or.inl he
        · exact Or.inr ⟨he, hs⟩

theorem del_length {l : List Entry} {n : Nat} : l.length ≤ (Deque.del l n).length + 1 := by
  induction l with
  | nil => simp
  | cons x l ih =>
    unfold Deque.del
    split
    · simp
    · simp only [List.length_cons]; omega

theorem del_of_not_mem {l : List Entry} {n : Nat} (h : n ∉ keys l) : Deque.del l n = l := by
  induction l with
  | nil => rfl
  | cons x l ih =>
    simp only [keys, List.map_cons, List.mem_cons, not_or] at h
    unfold Deque.del
    rw [if_neg (fun hh => h.1 hh.symm), ih h.2]

theorem keys_put (l : List Entry) (e : Entry) : keys (Deque.put l e) = keys l := by
  induction l with
  | nil => rfl
  | cons x l ih =>
    unfold Deque.put
    split
    · rename_i h; simp [keys, h]
    · simp only [keys, List.map_cons] at ih ⊢; rw [ih]

/-- Changing only the path of an entry changes neither numbers nor connection IDs. -/
theorem put_path_map {l : List Entry} {e : Entry} {p : Option Nat} (he : l.find? (·.seq == e.seq) = some e) :
    (Deque.put l { e with path := p }).map (fun x => (x.seq, x.cid, x.token)) = l.map (fun x => (x.seq, x.cid, x.token)) := by
  induction l with
  | nil => rfl
  | cons x l ih =>
    unfold Deque.put
    rw [List.find?_cons] at he
    by_cases hx : x.seq = e.seq
    · have : (x.seq == e.seq) = true := by simp [hx]
      rw [this] at he
      simp only [Option.some.injEq] at he
      rw [if_pos hx, ← he]; rfl
    · have : (x.seq == e.seq) = false := by simp [hx]
      rw [this] at he
      rw [if_neg hx, List.map_cons, List.map_cons, ih he]

theorem length_put (l : List Entry) (e : Entry) : (Deque.put l e).length = l.length := by
  have := congrArg List.length (keys_put l e)
  simpa using this

/-! ### the least element -/

theorem least_none {l : List Nat} : Ids.least l = none ↔ l = [] := by
  cases l with
  | nil => simp [Ids.least]
  | cons x l =>
    unfold Ids.least
    cases Ids.least l <;> simp

theorem least_some {l : List Nat} {n : Nat} (h : Ids.least l = some n) : n ∈ l ∧ ∀ x ∈ l, n ≤ x := by
  induction l generalizing n with
  | nil => cases h
  | cons x l ih =>
    unfold Ids.least at h
    cases hl : Ids.least l with
    | none =>
      rw [hl] at h
      rw [least_none] at hl
      simp only [Option.some.injEq] at h
      subst h hl
      simp
    | some y =>
      rw [hl] at h
      simp only [Option.some.injEq] at h
      obtain ⟨h1, h2⟩ := ih hl
      subst h
      refine ⟨?_, ?_⟩
      · rcases Nat.le_total x y with hxy | hxy
        · rw [Nat.min_eq_left hxy]; exact List.mem_cons_self
        · rw [Nat.min_eq_right hxy]; exact List.mem_cons_of_mem _ h1
      · intro z hz
        rcases List.mem_cons.mp hz with hz | hz
        · subst hz; exact Nat.min_le_left _ _
        · exact Nat.le_trans (Nat.min_le_right _ _) (h2 z hz)

theorem lowestUsable_ok {s : Ids} {n : Nat} (h : s.lowestUsable = .ok n) :
    n ∈ keys s.scids.inner ∧ s.retirePriorTo ≤ n ∧ ∀ x ∈ keys s.scids.inner, s.retirePriorTo ≤ x → n ≤ x := by
  unfold Ids.lowestUsable at h
  split at h
  · cases h
  · rename_i m hm
    cases h
    obtain ⟨h1, h2⟩ := least_some hm
    rw [List.mem_filter] at h1
    refine ⟨h1.1, by simpa using h1.2, fun x hx hr => h2 x (List.mem_filter.mpr ⟨hx, by simpa using hr⟩)⟩

theorem lowestUsable_error {s : Ids} {e : Err} (h : s.lowestUsable = .error e) :
    e = .invalidState ∧ ∀ x ∈ keys s.scids.inner, x < s.retirePriorTo := by
  unfold Ids.lowestUsable at h
  split at h
  · rename_i hm
    cases h
    rw [least_none, List.filter_eq_nil_iff] at hm
    refine ⟨rfl, fun x hx => ?_⟩
    have := hm x hx
    simp at this
    exact this
  · cases h

/-! ### numbers not yet retired -/

/-- The entries with a number of at least `r`. -/
abbrev above (r : Nat) (l : List Entry) : List Entry := l.filter fun e => decide (r ≤ e.seq)

theorem above_le {r r' : Nat} (l : List Entry) (h : r ≤ r') : (above r' l).length ≤ (above r l).length := by
  have : above r' l = above r' (above r l) := by
    unfold above
    rw [List.filter_filter]
    apply List.filter_congr
    intro x _
    rw [Bool.eq_iff_iff]
    simp only [decide_eq_true_eq, Bool.and_eq_true]
    omega
  rw [this]
  exact List.length_filter_le _ _

theorem above_lt {n r : Nat} {l : List Entry} (hm : n ∈ keys l) (hr : r ≤ n) : (above (n + 1) l).length < (above r l).length := by
  have : above (n + 1) l = above (n + 1) (above r l) := by
    unfold above
    rw [List.filter_filter]
    apply List.filter_congr
    intro x _
    rw [Bool.eq_iff_iff]
    simp only [decide_eq_true_eq, Bool.and_eq_true]
    omega
  rw [this]
  obtain ⟨e, he, hs⟩ := List.mem_map.mp hm
  apply List.length_filter_lt_length_iff_exists.mpr
  refine ⟨e, List.mem_filter.mpr ⟨he, by simp only [decide_eq_true_eq]; omega⟩, by simp only [decide_eq_true_eq]; omega⟩

theorem above_sublist {r : Nat} {l l' : List Entry} (h : l.Sublist l') : (above r l).length ≤ (above r l').length :=
  (h.filter _).length_le

/-! ### what each operation does -/

theorem newScidCont_cases (s : Ids) (cid : Bytes) (token : Option Nat) (adv : Bool) (path : Option Nat) :
    (∃ r, s.newScidCont cid token adv path = (r, s) ∧
      ((∃ e, r = .error e) ∨ ∃ e ∈ s.scids.inner, e.cid = cid ∧ e.token = token ∧ r = .ok e.seq)) ∨
    (∃ d, s.newScidCont cid token adv path = (.ok s.nextScidSeq,
        { s with scids := d, nextScidSeq := s.nextScidSeq + 1 }.markAdvertise s.nextScidSeq adv) ∧
      s.scids.insert ⟨cid, s.nextScidSeq, token, path⟩ = .ok d ∧
      (∀ e ∈ s.scids.inner, e.cid ≠ cid) ∧ (token.isSome ∨ s.nextScidSeq = 0)) := by
  unfold Ids.newScidCont
  dsimp only
  split
  · exact Or.inl ⟨_, rfl, Or.inl ⟨_, rfl⟩⟩
  rename_i htok
  split
  · rename_i e he
    have h1 := List.mem_of_find?_eq_some he
    have h2 := List.find?_some he
    simp at h2
    split
    · exact Or.inl ⟨_, rfl, Or.inl ⟨_, rfl⟩⟩
    · rename_i ht
      simp only [ne_eq, Decidable.not_not] at ht
      exact Or.inl ⟨_, rfl, Or.inr ⟨e, h1, h2, ht, rfl⟩⟩
  · rename_i hnone
    rw [List.find?_eq_none] at hnone
    split
    · exact Or.inl ⟨_, rfl, Or.inl ⟨_, rfl⟩⟩
    · rename_i d hd
      refine Or.inr ⟨d, rfl, hd, fun e he hc => hnone e he (by simp [hc]), ?_⟩
      cases token with
      | none => right; simpa using htok
      | some t => left; rfl

theorem insert_new {d d' : Deque} {e : Entry} (hn : e.seq ∉ keys d.inner) (h : d.insert e = .ok d') :
    d' = { d with inner := d.inner ++ [e] } ∧ d.inner.length < d.capacity := by
  unfold Deque.insert Deque.get at h
  rw [find_seq_none.mpr hn] at h
  dsimp only at h
  split at h
  · cases h
  · rename_i hc
    cases h
    exact ⟨rfl, by omega⟩

theorem insert_full {d : Deque} {e : Entry} {x : Err} (hn : e.seq ∉ keys d.inner) :
    d.insert e = .error x ↔ x = .idLimit ∧ d.capacity ≤ d.inner.length := by
  unfold Deque.insert Deque.get
  rw [find_seq_none.mpr hn]
  dsimp only
  split
  · rename_i hc
    simp only [Except.error.injEq]
    constructor
    · intro h; exact ⟨h.symm, hc⟩
    · intro h; exact h.1.symm
  · rename_i hc
    simp only [reduceCtorEq, false_iff]
    intro h; exact hc h.2

theorem markAdvertise_scids (s : Ids) (n : Nat) (b : Bool) :
    (s.markAdvertise n b).scids = s.scids ∧ (s.markAdvertise n b).nextScidSeq = s.nextScidSeq ∧
      (s.markAdvertise n b).retirePriorTo = s.retirePriorTo ∧ (s.markAdvertise n b).sourceLimit = s.sourceLimit ∧
      (s.markAdvertise n b).dcids = s.dcids ∧ (s.markAdvertise n b).retire = s.retire ∧
      (s.markAdvertise n b).peerRetirePriorTo = s.peerRetirePriorTo := by
  unfold Ids.markAdvertise
  split <;> exact ⟨rfl, rfl, rfl, rfl, rfl, rfl, rfl⟩

theorem markRetire_frame (s : Ids) (n : Nat) (b : Bool) :
    ∃ r, (s.markRetire n b).2 = { s with retire := r } := by
  unfold Ids.markRetire
  split
  · split
    · exact ⟨s.retire, rfl⟩
    · exact ⟨_, rfl⟩
  · exact ⟨_, rfl⟩

end Verif.Cid
