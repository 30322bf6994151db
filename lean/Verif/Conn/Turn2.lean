import Verif.Conn.Turn

/-! The relative order of two streams in the queue. -/

namespace Verif.Conn
open Verif Verif.Stream

/-- The order of `a` and `b` in a queue. -/
def pair (a b : Nat) (q : List Key) : List Nat := (q.map (·.id)).filter (fun i => i == a || i == b)

theorem pair_cons (a b : Nat) (k : Key) (t : List Key) :
    pair a b (k :: t) = if k.id = a ∨ k.id = b then k.id :: pair a b t else pair a b t := by
  unfold pair
  rw [List.map_cons, List.filter_cons]
  by_cases h : k.id = a ∨ k.id = b
  · rw [if_pos h, if_pos (by simpa using h)]
  · rw [if_neg h, if_neg (by simpa using h)]

theorem pair_append (a b : Nat) (p q : List Key) : pair a b (p ++ q) = pair a b p ++ pair a b q := by
  unfold pair; rw [List.map_append, List.filter_append]

theorem mem_pair {a b i : Nat} {q : List Key} : i ∈ pair a b q ↔ i ∈ q.map (·.id) ∧ (i = a ∨ i = b) := by
  unfold pair; rw [List.mem_filter]; simp

theorem pair_qdel (a b i : Nat) (q : List Key) : pair a b (qdel i q) = (pair a b q).filter (· != i) := by
  induction q with
  | nil => rfl
  | cons k t ih =>
    have e : qdel i (k :: t) = if k.id = i then qdel i t else k :: qdel i t := by
      unfold qdel; rw [List.filter_cons]
      by_cases h : k.id = i
      · rw [if_pos h, if_neg (by simpa using h)]
      · rw [if_neg h, if_pos (by simpa using h)]
    rw [e, pair_cons]
    by_cases h : k.id = i
    · rw [if_pos h, ih]
      split
      · rw [List.filter_cons_of_neg (by simpa using h)]
      · rfl
    · rw [if_neg h, pair_cons, ih]
      split
      · rw [List.filter_cons_of_pos (by simpa using h)]
      · rfl

theorem pair_qins_other {a b : Nat} {k : Key} (h1 : k.id ≠ a) (h2 : k.id ≠ b) (q : List Key) :
    pair a b (qins k q) = pair a b q := by
  have hk : ¬ (k.id = a ∨ k.id = b) := by simp [h1, h2]
  induction q with
  | nil => simp only [qins]; rw [pair_cons, if_neg hk]
  | cons e t ih =>
    simp only [qins]
    split
    · rw [pair_cons, if_neg hk]
    · rw [pair_cons, pair_cons, ih]

/-- An incremental stream is queued behind everything of its urgency. -/
theorem pair_qins_inc {a b : Nat} {k : Key} (ha : k.id = a) (hab : a ≠ b) (hinc : k.incremental = true) {q : List Key}
    (ho : Ordered q) (hka : a ∉ q.map (·.id)) (hu : ∀ e ∈ q, e.id = b → e.urgency ≤ k.urgency) :
    pair a b (qins k q) = pair a b q ++ [a] := by
  induction q with
  | nil => simp [qins, pair, ha]
  | cons e t ih =>
    have hka' : a ≠ e.id ∧ a ∉ t.map (·.id) := by simpa using hka
    simp only [qins]
    split
    · next hlt =>
      have hne : k.id ≠ e.id := by rw [ha]; exact hka'.1
      have hur : k.urgency < e.urgency := by
        rcases (cmp_lt_iff hne).mp hlt with h | ⟨-, h, -⟩
        · exact h
        · rw [hinc] at h; cases h
      have hb : b ∉ (e :: t).map (·.id) := by
        intro hm
        obtain ⟨x, hx, hxb⟩ := List.mem_map.mp hm
        have h1 := hu x hx hxb
        rcases List.mem_cons.mp hx with rfl | hx
        · omega
        · rcases (List.pairwise_cons.mp ho.ord).1 x hx with h2 | ⟨h2, -⟩ <;> omega
      have hz : pair a b (e :: t) = [] := by
        rw [List.eq_nil_iff_forall_not_mem]
        intro i hi
        obtain ⟨h1, rfl | rfl⟩ := mem_pair.mp hi
        · exact hka h1
        · exact hb h1
      rw [pair_cons, if_pos (.inl ha), hz, ha]; rfl
    · rw [pair_cons, pair_cons, ih ho.tail hka'.2 (fun x hx => hu x (List.mem_cons_of_mem _ hx))]
      split <;> simp

/-- `b` is queued, and `a` is queued behind it or not at all. -/
def Turn (a b : Nat) (q : List Key) : Prop := pair a b q = [b] ∨ pair a b q = [b, a]

theorem Turn.mem {a b : Nat} {q : List Key} (h : Turn a b q) : b ∈ q.map (·.id) := by
  have : b ∈ pair a b q := by rcases h with h | h <;> rw [h] <;> simp
  exact (mem_pair.mp this).1

/-- The priorities as found in a queue: `a` is incremental, and both have urgency `u`. -/
structure Peers (a b u : Nat) (q : List Key) : Prop where
  b : ∀ e ∈ q, e.id = b → e.urgency = u
  a : ∀ e ∈ q, e.id = a → e.urgency = u ∧ e.incremental = true

theorem Turn.rel {a b u : Nat} {q q' : List Key} (h : Turn a b q) (hab : a ≠ b) (hr : QRel q q') (ho : Ordered q)
    (hp : Peers a b u q') (hb : b ∈ q'.map (·.id)) : Turn a b q' := by
  cases hr with
  | same => exact h
  | add k =>
    unfold qadd at *
    split
    · exact h
    · next hl =>
      have hl : linked q k.id = false := by simpa using hl
      rw [if_neg (by simp [hl])] at hp
      have hnk := (linked_false_iff q k.id).mp hl
      by_cases h1 : k.id = a
      · have ha := hp.a k (by simp) h1
        have hx : pair a b q = [b] := by
          rcases h with h | h
          · exact h
          · have : a ∈ pair a b q := by rw [h]; simp
            exact absurd (mem_pair.mp this).1 (h1 ▸ hnk)
        right
        rw [pair_qins_inc h1 hab ha.2 ho (h1 ▸ hnk) ?_, hx]; rfl
        intro e he hid
        have := hp.b e (by simp [he]) hid
        omega
      · have h2 : k.id ≠ b := fun e => hnk (e ▸ h.mem)
        unfold Turn
        rw [pair_qins_other h1 h2]; exact h
  | del i =>
    have h1 : i ≠ b := by
      rintro rfl
      exact not_linked_qdel _ _ hb
    unfold Turn at *
    rw [pair_qdel]
    rcases h with h | h <;> rw [h]
    · left; rw [List.filter_cons_of_pos (by simpa using fun e => h1 e.symm)]; rfl
    · by_cases h2 : i = a
      · left
        rw [List.filter_cons_of_pos (by simpa using fun e => h1 e.symm), List.filter_cons_of_neg (by simp [h2])]; rfl
      · right
        rw [List.filter_cons_of_pos (by simpa using fun e => h1 e.symm),
          List.filter_cons_of_pos (by simpa using fun e => h2 e.symm)]; rfl

theorem Turn.rekey {a b : Nat} {q : List Key} (h : Turn a b q) {k : Key} (h1 : k.id ≠ a) (h2 : k.id ≠ b) :
    Turn a b (rekey k q) := by
  unfold Verif.Conn.rekey
  split
  · unfold Turn at *
    rw [pair_qins_other h1 h2, pair_qdel]
    rcases h with h | h <;> rw [h]
    · left; rw [List.filter_cons_of_pos (by simpa using fun e => h2 e.symm)]; rfl
    · right; rw [List.filter_cons_of_pos (by simpa using fun e => h2 e.symm),
        List.filter_cons_of_pos (by simpa using fun e => h1 e.symm)]; rfl
  · exact h

namespace Conn
variable {c c' : Conn} {h : Hist} {gone : List Nat}

/-- What is left of the queue after a STREAM frame has been put into a packet: a part at
the front was passed over and removed; the next stream stays where it is (unless it is
incremental), is removed or is queued again. -/
theorem outStreamLoop_q (left : Nat) : ∀ (fuel : Nat) (c : Conn), QOk c.streams c.flushable →
    ∃ pre rest, c.flushable = pre ++ rest ∧
      (((outStreamLoop left fuel c).1.flushable = rest ∧
          ((outStreamLoop left fuel c).1.crashed = true ∨ (outStreamLoop left fuel c).2 = .idle)) ∨
       ∃ k t, rest = k :: t ∧
        ((outStreamLoop left fuel c).1.crashed = true ∨
          ∃ off data fin, (outStreamLoop left fuel c).2 = .sentStream k.id off data fin) ∧
        (((outStreamLoop left fuel c).1.flushable = rest ∧ k.incremental = false) ∨
          (outStreamLoop left fuel c).1.flushable = t ∨
          (outStreamLoop left fuel c).1.flushable = qadd k t)) := by
  intro fuel
  induction fuel with
  | zero => intro c _; exact ⟨[], c.flushable, rfl, .inl ⟨rfl, .inr rfl⟩⟩
  | succ fuel ih =>
    intro c hok
    cases hq : c.flushable with
    | nil =>
      refine ⟨[], [], rfl, .inl ?_⟩; unfold outStreamLoop; rw [hq]; exact ⟨hq, .inr rfl⟩
    | cons k t =>
      have hn' : k.id ∉ t.map (·.id) ∧ (t.map (·.id)).Nodup := by have := hok.ord.nd; rw [hq] at this; simpa using this
      have hrm : (c.removeFlushable k.id).flushable = t := by
        simp only [removeFlushable, hq]; exact qdel_head hn'.1
      have skip : ∀ r, r = outStreamLoop left fuel (c.removeFlushable k.id) →
          ∃ pre rest, k :: t = pre ++ rest ∧
          ((r.1.flushable = rest ∧ (r.1.crashed = true ∨ r.2 = .idle)) ∨ ∃ k t, rest = k :: t ∧
            (r.1.crashed = true ∨ ∃ off data fin, r.2 = .sentStream k.id off data fin) ∧
            ((r.1.flushable = rest ∧ k.incremental = false) ∨ r.1.flushable = t ∨ r.1.flushable = qadd k t)) := by
        rintro r rfl
        obtain ⟨pre, rest, e1, e2⟩ := ih (c.removeFlushable k.id) (hok.qdel k.id)
        rw [hrm] at e1
        exact ⟨k :: pre, rest, by rw [e1]; rfl, e2⟩
      obtain ⟨s, hg, hks⟩ := hok.live k (by rw [hq]; exact List.mem_cons_self)
      have hg : c.get k.id = some s := hg
      unfold outStreamLoop
      rw [hq]
      simp only
      rw [hg]
      simp only
      split
      · exact skip _ rfl
      · split
        · exact skip _ rfl
        · split
          · exact ⟨[], k :: t, rfl, .inl ⟨hq, .inl rfl⟩⟩
          · next b out fin hemit =>
            refine ⟨[], k :: t, rfl, .inr ⟨k, t, rfl, ?_⟩⟩
            have hfl : ∀ (c1 : Conn), c1.flushable = k :: t → ∀ p : Prop, ∀ _ : Decidable p,
                let x := (if p then c1.removeFlushable k.id else if s.key.incremental = true then
                  (c1.removeFlushable k.id).insertFlushable s.key else c1).flushable
                (x = k :: t ∧ k.incremental = false) ∨ x = t ∨ x = qadd k t := by
              intro c1 h1 p _
              simp only [flushable_ite, removeFlushable_flushable, insertFlushable_flushable, h1, qdel_head hn'.1, hks]
              split
              · exact .inr (.inl rfl)
              · split
                · exact .inr (.inr rfl)
                · next hi => exact .inl ⟨rfl, by simpa using hi⟩
            split
            · exact ⟨.inl rfl, hfl _ (by simpa using hq) _ _⟩
            · next c2 h2 =>
              refine ⟨.inr ⟨_, _, _, rfl⟩, ?_⟩
              simp only
              rw [subTxBuffered_flushable h2]
              exact hfl _ (by simpa using hq) _ _

theorem Turn.out {a b u left : Nat} (hI : Inv c h gone) (ht : Turn a b c.flushable) (hab : a ≠ b)
    (hcr : (c.outStream left).1.crashed = false)
    (hev : ∀ off data fin, (c.outStream left).2 ≠ .sentStream b off data fin)
    (hb : b ∈ (c.outStream left).1.flushable.map (·.id)) : Turn a b (c.outStream left).1.flushable := by
  unfold outStream at *
  split
  · next hl =>
    rw [if_pos hl] at hcr hev hb
    obtain ⟨pre, rest, e1, e2⟩ := outStreamLoop_q left c.flushable.length c hI.shape.flushable
    generalize outStreamLoop left c.flushable.length c = r at *
    have hnd := hI.shape.flushable.ord.nd
    have hbr : b ∈ rest.map (·.id) := by
      rcases e2 with ⟨e2, -⟩ | ⟨k, t, e3, e5, e6⟩
      · rw [e2] at hb; exact hb
      · rcases e6 with ⟨e6, -⟩ | e6 | e6 <;> rw [e6] at hb
        · exact hb
        · rw [e3]; exact List.mem_cons_of_mem _ hb
        · rw [e3]
          unfold qadd at hb
          split at hb
          · exact List.mem_cons_of_mem _ hb
          · rcases (ids_qins k t b).mp hb with h1 | h1
            · rw [List.map_cons, h1]; exact List.mem_cons_self
            · exact List.mem_cons_of_mem _ h1
    have htr : Turn a b rest := by
      have hpre : b ∉ pre.map (·.id) := by
        rw [e1, List.map_append] at hnd
        intro hm
        exact (List.nodup_append.mp hnd).2.2 b hm b hbr rfl
      unfold Turn at *
      rw [e1, pair_append] at ht
      have hz : pair a b pre = [] := by
        cases hp : pair a b pre with
        | nil => rfl
        | cons x y =>
          exfalso
          have : x = b := by
            rcases ht with ht | ht <;> rw [hp] at ht <;> simp at ht <;> exact ht.1
          have hx : x ∈ pair a b pre := by rw [hp]; exact List.mem_cons_self
          rw [this] at hx
          exact hpre (mem_pair.mp hx).1
      rw [hz] at ht; exact ht
    rcases e2 with ⟨e2, -⟩ | ⟨k, t, e3, e5, e6⟩
    · rw [e2]; exact htr
    · have hkb : k.id ≠ b := by
        rcases e5 with e5 | ⟨off, data, fin, e5⟩
        · rw [hcr] at e5; cases e5
        · intro e; exact hev off data fin (e ▸ e5)
      have hka : k.id ≠ a := by
        intro e
        unfold Turn at htr
        rw [e3, pair_cons, if_pos (.inl e), e] at htr
        rcases htr with h1 | h1 <;> simp at h1 <;> exact hab h1.1
      have htt : Turn a b t := by
        unfold Turn at *
        rw [e3, pair_cons, if_neg (by simp [hka, hkb])] at htr; exact htr
      rcases e6 with ⟨e6, -⟩ | e6 | e6 <;> rw [e6]
      · exact htr
      · exact htt
      · unfold qadd
        split
        · exact htt
        · unfold Turn; rw [pair_qins_other hka hkb]; exact htt
  · exact ht

theorem pair_single {a b : Nat} {q : List Key} (hn : (q.map (·.id)).Nodup) (ha : a ∉ q.map (·.id))
    (hb : b ∈ q.map (·.id)) : pair a b q = [b] := by
  have h1 : (pair a b q).Nodup := hn.filter _
  have h2 : ∀ i ∈ pair a b q, i = b := by
    intro i hi
    obtain ⟨h3, rfl | rfl⟩ := mem_pair.mp hi
    · exact absurd h3 ha
    · rfl
  have h3 : b ∈ pair a b q := mem_pair.mpr ⟨hb, .inr rfl⟩
  cases hp : pair a b q with
  | nil => rw [hp] at h3; cases h3
  | cons x t =>
    rw [hp] at h1 h2
    have hx := h2 x List.mem_cons_self
    cases t with
    | nil => rw [hx]
    | cons y z =>
      have hy := h2 y (by simp)
      rw [hx, hy] at h1
      simp at h1

/-- After `a` has been served, `b` is before it. -/
theorem Turn.init {a b u left off : Nat} {data : Bytes} {fin : Bool} (hI : Inv c h gone) (hab : a ≠ b)
    (hcr : (c.outStream left).1.crashed = false)
    (hev : (c.outStream left).2 = .sentStream a off data fin)
    (hp : Peers a b u (c.outStream left).1.flushable)
    (hb : b ∈ (c.outStream left).1.flushable.map (·.id)) : Turn a b (c.outStream left).1.flushable := by
  unfold outStream at *
  split
  · next hl =>
    rw [if_pos hl] at hcr hev hb hp
    obtain ⟨pre, rest, e1, e2⟩ := outStreamLoop_q left c.flushable.length c hI.shape.flushable
    generalize outStreamLoop left c.flushable.length c = r at *
    have hord := hI.shape.flushable.ord
    rcases e2 with ⟨-, e2 | e2⟩ | ⟨k, t, e3, e5, e6⟩
    · rw [hcr] at e2; cases e2
    · rw [hev] at e2; cases e2
    · have hk : k.id = a := by
        rcases e5 with e5 | ⟨o, d, f, e5⟩
        · rw [hcr] at e5; cases e5
        · rw [hev] at e5; simp only [Ev.sentStream.injEq] at e5; exact e5.1.symm
      have hot : Ordered (k :: t) := by
        rw [e1, e3] at hord
        refine ⟨?_, (List.pairwise_append.mp hord.ord).2.1⟩
        have := hord.nd
        rw [List.map_append] at this
        exact (List.nodup_append.mp this).2.1
      have hat : a ∉ t.map (·.id) := by
        have := hot.nd
        rw [List.map_cons, List.nodup_cons, hk] at this
        exact this.1
      rcases e6 with ⟨e6, e7⟩ | e6 | e6
      · rw [e6, e3] at hp
        have := (hp.a k List.mem_cons_self hk).2
        rw [e7] at this; cases this
      · rw [e6] at hb ⊢
        exact .inl (pair_single hot.tail.nd hat hb)
      · rw [e6] at hb hp ⊢
        have hl : linked t k.id = false := by rw [linked_false_iff, hk]; exact hat
        unfold qadd at *
        rw [if_neg (by simp [hl])] at hb hp ⊢
        have hbt : b ∈ t.map (·.id) := by
          rcases (ids_qins k t b).mp hb with h1 | h1
          · exact absurd (hk.symm.trans h1.symm) hab
          · exact h1
        have ha := hp.a k (by simp) hk
        right
        rw [pair_qins_inc hk hab ha.2 hot.tail hat ?_, pair_single hot.tail.nd hat hbt]; rfl
        intro e he hid
        have := hp.b e (by simp [he]) hid
        omega
  · next hl => rw [if_neg hl] at hev; cases hev

/-- `b` keeps its place before `a` until it is served. -/
theorem Turn.step {a b u : Nat} {op : Op} (hI : Inv c h gone) (ht : Turn a b c.flushable) (hab : a ≠ b)
    (hcr : (c.step op).1.crashed = false)
    (hpr : ∀ id u inc, op = .priority id u inc → id ≠ a ∧ id ≠ b)
    (hev : ∀ off data fin, (c.step op).2 ≠ .sentStream b off data fin)
    (hp : Peers a b u (c.step op).1.flushable)
    (hb : b ∈ (c.step op).1.flushable.map (·.id)) : Turn a b (c.step op).1.flushable := by
  rcases step_q (c := c) op with hr | ⟨id, u, inc, k, e, e2, e3⟩ | ⟨left, e, e2⟩
  · exact ht.rel hab hr hI.shape.flushable.ord hp hb
  · have := hpr _ _ _ e
    rw [e3]
    exact ht.rekey (by rw [e2]; exact this.1) (by rw [e2]; exact this.2)
  · rw [e2] at hcr hev hb ⊢
    exact Turn.out (u := u) hI ht hab hcr hev hb

end Conn
end Verif.Conn
