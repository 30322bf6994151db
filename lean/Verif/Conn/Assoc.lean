/-!
Finite maps as association lists (`StreamIdHashMap`, `BTreeMap`). Every key occurs at
most once; the order of the entries carries no meaning.
-/

namespace Verif.Assoc

variable {α β : Type}

/-- `HashMap::get`. -/
def get : List (Nat × α) → Nat → Option α
  | [], _ => none
  | (a, x) :: t, k => if a = k then some x else get t k

/-- `HashMap::insert`. -/
def put : List (Nat × α) → Nat → α → List (Nat × α)
  | [], k, v => [(k, v)]
  | (a, x) :: t, k, v => if a = k then (k, v) :: t else (a, x) :: put t k v

/-- `HashMap::remove`. -/
def del : List (Nat × α) → Nat → List (Nat × α)
  | [], _ => []
  | (a, x) :: t, k => if a = k then t else (a, x) :: del t k

/-- The keys. -/
def keys (m : List (Nat × α)) : List Nat := m.map (·.1)

/-- Sum of a measure of the values. -/
def sum (f : α → Nat) : List (Nat × α) → Nat
  | [] => 0
  | (_, x) :: t => f x + sum f t

@[simp] theorem keys_nil : keys ([] : List (Nat × α)) = [] := rfl
@[simp] theorem keys_cons (p : Nat × α) (t) : keys (p :: t) = p.1 :: keys t := rfl
@[simp] theorem sum_nil (f : α → Nat) : sum f [] = 0 := rfl
@[simp] theorem sum_cons (f : α → Nat) (p : Nat × α) (t) : sum f (p :: t) = f p.2 + sum f t := rfl

theorem get_none_iff (m : List (Nat × α)) (k : Nat) : get m k = none ↔ k ∉ keys m := by
  induction m with
  | nil => simp [get]
  | cons p t ih =>
    obtain ⟨a, x⟩ := p
    by_cases h : a = k
    · simp [get, h]
    · simp only [get, if_neg h, ih, keys_cons, List.mem_cons, not_or]
      constructor
      · intro hh; exact ⟨fun e => h e.symm, hh⟩
      · exact fun hh => hh.2

theorem get_some_mem {m : List (Nat × α)} {k : Nat} {v : α} (h : get m k = some v) : (k, v) ∈ m := by
  induction m with
  | nil => simp [get] at h
  | cons p t ih =>
    obtain ⟨a, x⟩ := p
    by_cases c : a = k
    · simp only [get, if_pos c, Option.some.injEq] at h; simp [c, h]
    · simp only [get, if_neg c] at h; simp [ih h]

theorem get_some_keys {m : List (Nat × α)} {k : Nat} {v : α} (h : get m k = some v) : k ∈ keys m :=
  List.mem_map_of_mem (get_some_mem h)

theorem mem_get {m : List (Nat × α)} (hn : (keys m).Nodup) {k : Nat} {v : α} (h : (k, v) ∈ m) :
    get m k = some v := by
  induction m with
  | nil => simp at h
  | cons p t ih =>
    obtain ⟨a, x⟩ := p
    simp only [keys_cons, List.nodup_cons] at hn
    rcases List.mem_cons.mp h with h | h
    · obtain ⟨rfl, rfl⟩ := Prod.mk.injEq .. ▸ h; simp [get]
    · have hk : k ∈ keys t := List.mem_map_of_mem h
      have : a ≠ k := fun e => hn.1 (e ▸ hk)
      simp only [get, if_neg this]; exact ih hn.2 h

theorem keys_get {m : List (Nat × α)} {k : Nat} (h : k ∈ keys m) : ∃ v, get m k = some v := by
  cases hg : get m k with
  | some v => exact ⟨v, rfl⟩
  | none => exact absurd h ((get_none_iff m k).mp hg)

theorem get_put (m : List (Nat × α)) (k k' : Nat) (v : α) :
    get (put m k v) k' = if k = k' then some v else get m k' := by
  induction m with
  | nil => simp [put, get]
  | cons p t ih =>
    obtain ⟨a, x⟩ := p
    by_cases c : a = k
    · subst c
      by_cases c2 : a = k'
      · simp [put, get, c2]
      · simp [put, get, c2]
    · by_cases c2 : a = k'
      · have c3 : ¬ k = k' := fun e => c (c2.trans e.symm)
        simp only [put, if_neg c, get, if_pos c2, if_neg c3]
      · simp only [put, if_neg c, get, if_neg c2]; exact ih

theorem keys_put_mem (m : List (Nat × α)) (k : Nat) (v : α) (k' : Nat) :
    k' ∈ keys (put m k v) ↔ k' = k ∨ k' ∈ keys m := by
  induction m with
  | nil => simp [put]
  | cons p t ih =>
    obtain ⟨a, x⟩ := p
    by_cases c : a = k
    · subst c; simp [put]
    · simp only [put, if_neg c, keys_cons, List.mem_cons, ih]
      constructor <;> (intro h; rcases h with h | h | h <;> simp [h])

theorem keys_put_of_get {m : List (Nat × α)} {k : Nat} {w : α} (h : get m k = some w) (v : α) :
    keys (put m k v) = keys m := by
  induction m with
  | nil => simp [get] at h
  | cons p t ih =>
    obtain ⟨a, x⟩ := p
    by_cases c : a = k
    · subst c; simp [put]
    · simp only [get, if_neg c] at h
      simp [put, if_neg c, ih h]

theorem nodup_put {m : List (Nat × α)} (hn : (keys m).Nodup) (k : Nat) (v : α) :
    (keys (put m k v)).Nodup := by
  induction m with
  | nil => simp [put]
  | cons p t ih =>
    obtain ⟨a, x⟩ := p
    simp only [keys_cons, List.nodup_cons] at hn
    by_cases c : a = k
    · subst c; simp [put, hn]
    · simp only [put, if_neg c, keys_cons, List.nodup_cons, keys_put_mem, not_or]
      exact ⟨⟨c, hn.1⟩, ih hn.2⟩

theorem get_del_ne (m : List (Nat × α)) {k k' : Nat} (h : k' ≠ k) : get (del m k) k' = get m k' := by
  induction m with
  | nil => rfl
  | cons p t ih =>
    obtain ⟨a, x⟩ := p
    by_cases c : a = k
    · subst c; simp [del, get, Ne.symm h]
    · simp only [del, if_neg c, get, ih]

theorem keys_del_mem {m : List (Nat × α)} (hn : (keys m).Nodup) (k k' : Nat) :
    k' ∈ keys (del m k) ↔ k' ≠ k ∧ k' ∈ keys m := by
  induction m with
  | nil => simp [del]
  | cons p t ih =>
    obtain ⟨a, x⟩ := p
    simp only [keys_cons, List.nodup_cons] at hn
    by_cases c : a = k
    · subst c
      simp only [del, if_pos rfl, keys_cons, List.mem_cons]
      constructor
      · intro h; exact ⟨fun e => hn.1 (e ▸ h), .inr h⟩
      · rintro ⟨h1, h2 | h2⟩
        · exact absurd h2 h1
        · exact h2
    · simp only [del, if_neg c, keys_cons, List.mem_cons, ih hn.2]
      constructor
      · rintro (h | h)
        · exact ⟨fun e => c (h.symm.trans e), .inl h⟩
        · exact ⟨h.1, .inr h.2⟩
      · rintro ⟨h1, h2 | h2⟩
        · exact .inl h2
        · exact .inr ⟨h1, h2⟩

theorem nodup_del {m : List (Nat × α)} (hn : (keys m).Nodup) (k : Nat) : (keys (del m k)).Nodup := by
  induction m with
  | nil => simp [del]
  | cons p t ih =>
    obtain ⟨a, x⟩ := p
    have hn' := hn
    simp only [keys_cons, List.nodup_cons] at hn
    by_cases c : a = k
    · subst c; simp [del, hn]
    · simp only [del, if_neg c, keys_cons, List.nodup_cons, keys_del_mem hn.2]
      exact ⟨fun h => hn.1 h.2, ih hn.2⟩

theorem get_del_self {m : List (Nat × α)} (hn : (keys m).Nodup) (k : Nat) : get (del m k) k = none := by
  rw [get_none_iff, keys_del_mem hn]; simp

theorem sum_put_of_get {m : List (Nat × α)} {k : Nat} {w : α} (h : get m k = some w) (f : α → Nat)
    (v : α) : sum f (put m k v) + f w = sum f m + f v := by
  induction m with
  | nil => simp [get] at h
  | cons p t ih =>
    obtain ⟨a, x⟩ := p
    by_cases c : a = k
    · simp only [get, if_pos c, Option.some.injEq] at h
      subst h; simp only [put, if_pos c, sum_cons]; omega
    · simp only [get, if_neg c] at h
      have := ih h
      simp only [put, if_neg c, sum_cons]; omega

theorem sum_put_of_none {m : List (Nat × α)} {k : Nat} (h : get m k = none) (f : α → Nat)
    (v : α) : sum f (put m k v) = sum f m + f v := by
  induction m with
  | nil => simp [put]
  | cons p t ih =>
    obtain ⟨a, x⟩ := p
    by_cases c : a = k
    · simp [get, if_pos c] at h
    · simp only [get, if_neg c] at h
      have := ih h
      simp only [put, if_neg c, sum_cons]; omega

theorem sum_del_of_get {m : List (Nat × α)} {k : Nat} {w : α} (h : get m k = some w) (f : α → Nat) :
    sum f (del m k) + f w = sum f m := by
  induction m with
  | nil => simp [get] at h
  | cons p t ih =>
    obtain ⟨a, x⟩ := p
    by_cases c : a = k
    · simp only [get, if_pos c, Option.some.injEq] at h
      subst h; simp only [del, if_pos c, sum_cons]; omega
    · simp only [get, if_neg c] at h
      have := ih h
      simp only [del, if_neg c, sum_cons]; omega

theorem le_sum_of_get {m : List (Nat × α)} {k : Nat} {w : α} (h : get m k = some w) (f : α → Nat) :
    f w ≤ sum f m := by
  have := sum_del_of_get h f; omega

theorem sum_le_sum {m : List (Nat × α)} (f g : α → Nat) (h : ∀ k v, (k, v) ∈ m → f v ≤ g v) :
    sum f m ≤ sum g m := by
  induction m with
  | nil => simp
  | cons p t ih =>
    have h1 := h p.1 p.2 (by simp)
    have h2 := ih (fun k v hm => h k v (by simp [hm]))
    simp only [sum_cons]; omega

theorem sum_add (m : List (Nat × α)) (f g : α → Nat) :
    sum (fun v => f v + g v) m = sum f m + sum g m := by
  induction m with
  | nil => rfl
  | cons p t ih => simp only [sum_cons, ih]; omega

theorem put_get_self {m : List (Nat × α)} {k : Nat} {w : α} (h : get m k = some w) : put m k w = m := by
  induction m with
  | nil => simp [get] at h
  | cons p t ih =>
    obtain ⟨a, x⟩ := p
    by_cases c : a = k
    · simp only [get, if_pos c, Option.some.injEq] at h
      subst h; subst c; simp [put]
    · simp only [get, if_neg c] at h
      simp [put, if_neg c, ih h]

theorem put_of_none {m : List (Nat × α)} {k : Nat} (h : get m k = none) (v : α) :
    put m k v = m ++ [(k, v)] := by
  induction m with
  | nil => rfl
  | cons p t ih =>
    obtain ⟨a, x⟩ := p
    by_cases c : a = k
    · simp [get, if_pos c] at h
    · simp only [get, if_neg c] at h
      simp [put, if_neg c, ih h]

theorem mem_put {m : List (Nat × α)} {k : Nat} {v : α} {p : Nat × α} (h : p ∈ put m k v) : p ∈ m ∨ p = (k, v) := by
  induction m with
  | nil => right; simpa [put] using h
  | cons q t ih =>
    obtain ⟨a, x⟩ := q
    simp only [put] at h
    split at h
    · rcases List.mem_cons.mp h with h | h
      · exact .inr h
      · exact .inl (List.mem_cons_of_mem _ h)
    · rcases List.mem_cons.mp h with h | h
      · exact .inl (h ▸ List.mem_cons_self)
      · exact (ih h).imp (List.mem_cons_of_mem _) id

theorem mem_del {m : List (Nat × α)} {k : Nat} {p : Nat × α} (h : p ∈ del m k) : p ∈ m := by
  induction m with
  | nil => simp [del] at h
  | cons q t ih =>
    obtain ⟨a, x⟩ := q
    simp only [del] at h
    split at h
    · exact List.mem_cons_of_mem _ h
    · rcases List.mem_cons.mp h with h | h
      · exact h ▸ List.mem_cons_self
      · exact List.mem_cons_of_mem _ (ih h)

theorem put_put (m : List (Nat × α)) (k : Nat) (v w : α) : put (put m k v) k w = put m k w := by
  induction m with
  | nil => simp [put]
  | cons q t ih =>
    obtain ⟨a, x⟩ := q
    simp only [put]
    split
    · simp [put]
    · next h => simp [put, h, ih]

end Verif.Assoc
