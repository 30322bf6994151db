import Verif.Conn.Fields

/-!
The stream queues. A queue is kept in the order `Key.le`; insertion into the
red-black tree, whose descent compares with the unlawful `Key.cmp`, gives the same
sequence as `qins`.
-/

namespace Verif.Conn
open Verif

/-- `a` may be served before `b`: lower urgency first, then non-incremental streams by
ID, then incremental ones in any order. -/
def Key.le (a b : Key) : Prop :=
  a.urgency < b.urgency ∨ (a.urgency = b.urgency ∧
    (b.incremental = true ∨ (a.incremental = false ∧ b.incremental = false ∧ a.id < b.id)))

/-- The strict part of the order, as decided by `cmp`. -/
theorem cmp_lt_iff {a b : Key} (h : a.id ≠ b.id) :
    (a.cmp b == .lt) = true ↔ a.urgency < b.urgency ∨ (a.urgency = b.urgency ∧
      a.incremental = false ∧ (b.incremental = true ∨ a.id < b.id)) := by
  unfold Key.cmp
  rw [if_neg h]
  by_cases hu : a.urgency = b.urgency
  · have h0 : ¬ (a.urgency ≠ b.urgency) := fun x => x hu
    rw [if_neg h0]
    cases ha : a.incremental <;> cases hb : b.incremental <;> simp [hu, Nat.compare_eq_lt]
  · rw [if_pos hu]
    simp [Nat.compare_eq_lt, hu]

theorem le_of_cmp_lt {a b : Key} (h : a.id ≠ b.id) (hc : (a.cmp b == .lt) = true) : a.le b := by
  rcases (cmp_lt_iff h).mp hc with h1 | ⟨h1, h2, h3⟩
  · exact .inl h1
  · refine .inr ⟨h1, ?_⟩
    cases hb : b.incremental
    · rcases h3 with h3 | h3
      · simp [hb] at h3
      · exact .inr ⟨h2, rfl, h3⟩
    · exact .inl rfl

theorem le_of_not_cmp_lt {a b : Key} (h : a.id ≠ b.id) (hc : (a.cmp b == .lt) = false) : b.le a := by
  have hn : ¬ _ := fun x => by rw [(cmp_lt_iff h).mpr x] at hc; exact absurd hc (by decide)
  rw [not_or, not_and, not_and] at hn
  obtain ⟨h1, h2⟩ := hn
  rcases Nat.lt_or_ge b.urgency a.urgency with hu | hu
  · exact .inl hu
  · have he : a.urgency = b.urgency := by omega
    refine .inr ⟨he.symm, ?_⟩
    cases ha : a.incremental
    · have := h2 he ha
      rw [not_or] at this
      obtain ⟨h3, h4⟩ := this
      cases hb : b.incremental
      · exact .inr ⟨rfl, rfl, by omega⟩
      · exact absurd hb h3
    · exact .inl rfl

theorem Key.le_trans_cmp {a b c : Key} (hab : a.id ≠ b.id) (h : (a.cmp b == .lt) = true) (hbc : b.le c) :
    a.le c := by
  rcases (cmp_lt_iff hab).mp h with h1 | ⟨h1, h2, h3⟩ <;> rcases hbc with h4 | ⟨h4, h5⟩
  · exact .inl (by omega)
  · exact .inl (by omega)
  · exact .inl (by omega)
  · refine .inr ⟨by omega, ?_⟩
    rcases h5 with h5 | ⟨h5, h6, h7⟩
    · exact .inl h5
    · rcases h3 with h3 | h3
      · rw [h5] at h3; exact absurd h3 (by decide)
      · exact .inr ⟨h2, h6, by omega⟩

@[simp] theorem mem_qins (k : Key) (q : List Key) (e : Key) : e ∈ qins k q ↔ e = k ∨ e ∈ q := by
  induction q with
  | nil => simp [qins]
  | cons x t ih =>
    simp only [qins]
    split
    · simp
    · simp only [List.mem_cons, ih]
      constructor <;> (intro h; rcases h with h | h | h <;> simp [h])

theorem ids_qins (k : Key) (q : List Key) (i : Nat) :
    i ∈ (qins k q).map (·.id) ↔ i = k.id ∨ i ∈ q.map (·.id) := by
  simp only [List.mem_map, mem_qins]
  constructor
  · rintro ⟨a, ha | ha, rfl⟩
    · exact .inl (by rw [ha])
    · exact .inr ⟨a, ha, rfl⟩
  · rintro (h | ⟨a, ha, rfl⟩)
    · exact ⟨k, .inl rfl, h.symm⟩
    · exact ⟨a, .inr ha, rfl⟩

theorem linked_iff (q : List Key) (id : Nat) : linked q id = true ↔ id ∈ q.map (·.id) := by
  simp [linked]

theorem linked_false_iff (q : List Key) (id : Nat) : linked q id = false ↔ id ∉ q.map (·.id) := by
  rw [← linked_iff]; simp

theorem mem_qdel (id : Nat) (q : List Key) (e : Key) : e ∈ qdel id q ↔ e ∈ q ∧ e.id ≠ id := by
  simp [qdel]

theorem not_linked_qdel (id : Nat) (q : List Key) : id ∉ (qdel id q).map (·.id) := by
  simp only [List.mem_map, mem_qdel, not_exists, not_and]
  rintro a ⟨-, h⟩; exact h

/-- A queue in serving order, each stream at most once. -/
structure Ordered (q : List Key) : Prop where
  nd : (q.map (·.id)).Nodup
  ord : q.Pairwise Key.le

theorem ordered_nil : Ordered [] := ⟨by simp, by simp⟩

theorem Ordered.tail {e : Key} {t : List Key} (h : Ordered (e :: t)) : Ordered t :=
  ⟨(List.nodup_cons.mp h.nd).2, (List.pairwise_cons.mp h.ord).2⟩

theorem Ordered.qins {k : Key} {q : List Key} (h : Ordered q) (hk : k.id ∉ q.map (·.id)) :
    Ordered (qins k q) := by
  induction q with
  | nil => exact ⟨by simp [Conn.qins], by simp [Conn.qins]⟩
  | cons e t ih =>
    simp only [List.map_cons, List.mem_cons, not_or] at hk
    have h1 := List.pairwise_cons.mp h.ord
    have h2 := List.nodup_cons.mp h.nd
    simp only [Conn.qins]
    split
    · next hc =>
      refine ⟨by simp only [List.map_cons, List.nodup_cons, List.mem_cons, not_or]; exact ⟨hk, h2⟩, ?_⟩
      refine List.pairwise_cons.mpr ⟨?_, h.ord⟩
      intro x hx
      rcases List.mem_cons.mp hx with rfl | hx
      · exact le_of_cmp_lt hk.1 hc
      · exact Key.le_trans_cmp hk.1 hc (h1.1 x hx)
    · next hc =>
      have ih' := ih h.tail hk.2
      refine ⟨?_, ?_⟩
      · simp only [List.map_cons, List.nodup_cons, ids_qins, not_or]
        exact ⟨⟨fun x => hk.1 x.symm, h2.1⟩, ih'.nd⟩
      · refine List.pairwise_cons.mpr ⟨?_, ih'.ord⟩
        intro x hx
        rcases (mem_qins _ _ _).mp hx with rfl | hx
        · exact le_of_not_cmp_lt hk.1 (by simpa using hc)
        · exact h1.1 x hx

theorem Ordered.qdel {q : List Key} (h : Ordered q) (id : Nat) : Ordered (qdel id q) := by
  refine ⟨?_, h.ord.filter _⟩
  have : List.Sublist ((Conn.qdel id q).map (·.id)) (q.map (·.id)) := List.Sublist.map _ List.filter_sublist
  exact List.Sublist.nodup this h.nd

theorem Ordered.qadd {k : Key} {q : List Key} (h : Ordered q) : Ordered (qadd k q) := by
  unfold Conn.qadd
  split
  · exact h
  · next hl => exact h.qins (by rw [← linked_iff]; exact hl)

/-! ### The red-black tree -/

/-- A binary search tree; colours and rotations do not change the sequence of keys. -/
inductive Tree where
  | leaf
  | node (l : Tree) (k : Key) (r : Tree)

/-- The iteration order. -/
def Tree.inorder : Tree → List Key
  | .leaf => []
  | .node l k r => l.inorder ++ k :: r.inorder

/-- The descent of `RBTree::insert`: left iff the new key is less. -/
def Tree.insert (k : Key) : Tree → Tree
  | .leaf => .node .leaf k .leaf
  | .node l e r => if k.cmp e == .lt then .node (l.insert k) e r else .node l e (r.insert k)

theorem qins_append_lt {k : Key} {a b : List Key} {e : Key} (h : (k.cmp e == .lt) = true) :
    qins k (a ++ e :: b) = qins k a ++ e :: b := by
  induction a with
  | nil => simp [qins, h]
  | cons x t ih =>
    simp only [List.cons_append, qins]
    split <;> simp [ih]

theorem qins_append_ge {k : Key} {a b : List Key} {e : Key}
    (h : ∀ x ∈ a, (k.cmp x == .lt) = false) (he : (k.cmp e == .lt) = false) :
    qins k (a ++ e :: b) = a ++ e :: qins k b := by
  induction a with
  | nil => simp [qins, he]
  | cons x t ih =>
    have := h x (by simp)
    simp only [List.cons_append, qins, this, Bool.false_eq_true, if_false]
    rw [ih (fun y hy => h y (by simp [hy]))]

/-- Although `cmp` is not a lawful order, on a queue in serving order it decides
consistently: everything before a key that is not greater is not greater either. -/
theorem cmp_mono {k a b : Key} (hk : k.id ≠ a.id) (hk' : k.id ≠ b.id) (hab : a.le b)
    (hb : (k.cmp b == .lt) = false) : (k.cmp a == .lt) = false := by
  cases h : (k.cmp a == .lt) with
  | false => rfl
  | true =>
    rcases (cmp_lt_iff hk).mp h with h1 | ⟨h1, h2, h3⟩
    · have : (k.cmp b == .lt) = true := (cmp_lt_iff hk').mpr (.inl (by rcases hab with h | h <;> omega))
      rw [this] at hb; exact absurd hb (by decide)
    · have : (k.cmp b == .lt) = true := by
        refine (cmp_lt_iff hk').mpr ?_
        rcases hab with h4 | ⟨h4, h5⟩
        · exact .inl (by omega)
        · refine .inr ⟨by omega, h2, ?_⟩
          rcases h5 with h5 | ⟨h5, h6, h7⟩
          · exact .inl h5
          · rcases h3 with h3 | h3
            · rw [h5] at h3; exact absurd h3 (by decide)
            · exact .inr (by omega)
      rw [this] at hb; exact absurd hb (by decide)

/-- Insertion into the tree gives the sequence `qins` describes. -/
theorem Tree.inorder_insert (t : Tree) (k : Key) (h : Ordered t.inorder)
    (hk : k.id ∉ t.inorder.map (·.id)) : (t.insert k).inorder = qins k t.inorder := by
  induction t with
  | leaf => rfl
  | node l e r ihl ihr =>
    simp only [Tree.inorder] at h hk
    simp only [List.map_append, List.map_cons, List.mem_append, List.mem_cons, not_or] at hk
    have hp := List.pairwise_append.mp h.ord
    have hl : Ordered l.inorder := ⟨by
      have := h.nd; rw [List.map_append] at this; exact (List.nodup_append.mp this).1, hp.1⟩
    have hr : Ordered r.inorder := by
      have : Ordered (e :: r.inorder) := ⟨by
        have := h.nd; rw [List.map_append] at this; exact (List.nodup_append.mp this).2.1, hp.2.1⟩
      exact this.tail
    simp only [Tree.insert]
    split
    · next hc =>
      simp only [Tree.inorder, ihl hl hk.1, qins_append_lt hc]
    · next hc =>
      have hc : (k.cmp e == .lt) = false := by simpa using hc
      simp only [Tree.inorder, ihr hr hk.2.2]
      rw [qins_append_ge _ hc]
      intro x hx
      refine cmp_mono ?_ hk.2.1 (hp.2.2 x hx e (by simp)) hc
      intro h; exact hk.1 (h ▸ List.mem_map_of_mem hx)

end Verif.Conn
